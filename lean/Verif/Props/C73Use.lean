import Verif.Props.C73

/-! # C73, continued: polyhedra from NURBS surfaces, the closest point, text -/

namespace Zeo
open Finset Spec NURBS

variable {n : NURBS} {sg : BSpline → ℝ → ℕ} {τ u v : ℝ}

/-! ## The polyhedron -/

private theorem vert_loop (n : NURBS) : ∀ (l : List (ℕ × ℕ)) (buf : ℕ → Vec3 ℝ) (m : ℕ),
    (∀ k ∈ l, (n.eval sg τ (n.p0.knotSlice k.1) (n.p1.knotSlice k.2)).1 = true) →
    ∀ i, (l.foldl (n.vertStep sg τ) (buf, m)).1 (m + i) =
      match l[i]? with
      | some k => (n.eval sg τ (n.p0.knotSlice k.1) (n.p1.knotSlice k.2)).2
      | none => if l.length = 0 then buf (m + i) else (l.foldl (n.vertStep sg τ) (buf, m)).1 (m + i)
  | [], buf, m, _, i => by simp
  | k :: l, buf, m, h, i => by
    rw [List.foldl_cons]
    have h1 : n.vertStep sg τ (buf, m) k = (Function.update buf m (n.eval sg τ (n.p0.knotSlice k.1) (n.p1.knotSlice k.2)).2, m + 1) := by
      simp [vertStep, h k (by simp)]
    rw [h1]
    cases i with
    | zero =>
      simp only [List.getElem?_cons_zero, add_zero]
      have keep : ∀ (l : List (ℕ × ℕ)) (buf : ℕ → Vec3 ℝ) (m j : ℕ), j < m →
          (l.foldl (n.vertStep sg τ) (buf, m)).1 j = buf j := by
        intro l
        induction l with
        | nil => intro buf m j _; rfl
        | cons a l ih =>
          intro buf m j hj
          rw [List.foldl_cons]
          have : (n.vertStep sg τ (buf, m) a) = (Function.update buf m (n.eval sg τ (n.p0.knotSlice a.1) (n.p1.knotSlice a.2)).2,
            if (n.eval sg τ (n.p0.knotSlice a.1) (n.p1.knotSlice a.2)).1 = true then m + 1 else m) := rfl
          rw [this, ih _ _ _ (by split_ifs <;> omega), Function.update_of_ne (by omega)]
      rw [keep _ _ _ _ (by omega)]
      simp
    | succ i =>
      have := vert_loop n l (Function.update buf m (n.eval sg τ (n.p0.knotSlice k.1) (n.p1.knotSlice k.2)).2) (m + 1)
        (fun k hk => h k (by simp [hk])) i
      rw [show m + (i + 1) = m + 1 + i by ring]
      simp only [List.getElem?_cons_succ]
      cases hl : l[i]? with
      | none => simp
      | some k' => rw [this, hl]

private theorem grid_get (b : ℕ) : ∀ (a i j : ℕ), i < a → j < b →
    ((List.range a).flatMap fun i => (List.range b).map fun j => (i, j))[i * b + j]? = some (i, j)
  | a + 1, i, j, hi, hj => by
    have hlen : ∀ a, ((List.range a).flatMap fun i => (List.range b).map fun j => (i, j)).length = a * b := by
      intro a; simp
    rw [List.range_succ, List.flatMap_append]
    rcases Nat.lt_succ_iff_lt_or_eq.1 hi with h | h
    · rw [List.getElem?_append_left, grid_get b a i j h hj]
      rw [hlen]; nlinarith
    · subst h
      rw [List.getElem?_append_right (by rw [hlen]; omega), hlen, Nat.add_sub_cancel_left]
      simp [hj]

private theorem vec_of_eval (h : (n.eval sg τ u v).1 = true) : n.vec sg τ u v = some (n.eval sg τ u v).2 := by
  unfold vec; simp [h]

private theorem eval_of_vec {p : Vec3 ℝ} (h : n.vec sg τ u v = some p) : (n.eval sg τ u v).1 = true ∧ (n.eval sg τ u v).2 = p := by
  unfold vec at h
  dsimp only at h
  split_ifs at h with h1
  exact ⟨h1, Option.some.inj h⟩

/-- The ends of slices are in the domain. -/
private theorem slice_domain {b : BSpline} {m k : ℕ} (h : KnotsOK b m) (hs : 0 < b.slice) (hk : k ≤ b.slice) :
    InDomain b m (b.knotSlice k) := by
  have e1 : b.knotS = b.kn b.order := rfl
  have e2 : b.knotE = b.kn m := by unfold BSpline.knotE; rw [h.num_eq]
  have hw := h.wide
  unfold InDomain BSpline.knotSlice
  rw [e1, e2]
  have hp : (0 : ℝ) < b.slice := by exact_mod_cast hs
  have hk' : (k : ℝ) ≤ b.slice := by exact_mod_cast hk
  have a1 : 0 ≤ (b.kn m - b.kn b.order) * k / b.slice := by
    have : (0 : ℝ) ≤ k := by positivity
    have : 0 ≤ b.kn m - b.kn b.order := by linarith
    positivity
  have a2 : (b.kn m - b.kn b.order) * k / b.slice ≤ b.kn m - b.kn b.order := by
    rw [div_le_iff₀ hp]
    exact mul_le_mul_of_nonneg_left hk' (by linarith)
  constructor <;> linarith

/-- The polyhedron of a surface with weights above the tolerance: the vertex in row `i` and column `j` is the point
`S i j` of the surface at the ends of the slices `i` and `j`; the faces are the two triangles of each cell of the
grid, all with the same sense of rotation, and no others. -/
theorem C73_ph (hs : IsSegment sg) (hn : NurbsOK n) (hτ : 0 ≤ τ) (hw : ∀ i < n.n0, ∀ j < n.n1, τ < n.w i j)
    (h0 : 0 < n.p0.slice) (h1 : 0 < n.p1.slice) :
    (n.toPH sg τ).nv = (n.p0.slice + 1) * (n.p1.slice + 1) ∧ ∃ S : ℕ → ℕ → Vec3 ℝ,
    (∀ i j, i ≤ n.p0.slice → j ≤ n.p1.slice →
      n.vec sg τ (n.p0.knotSlice i) (n.p1.knotSlice j) = some (S i j) ∧
      (n.toPH sg τ).vert (i * (n.p1.slice + 1) + j) = S i j) ∧
    ((n.toPH sg τ).face.map fun f => ((n.toPH sg τ).vert f.i0, (n.toPH sg τ).vert f.i1, (n.toPH sg τ).vert f.i2)) =
      (List.range n.p0.slice).flatMap fun i => (List.range n.p1.slice).flatMap fun j =>
        [(S i j, S (i + 1) j, S (i + 1) (j + 1)), (S i j, S (i + 1) (j + 1), S i (j + 1))] := by
  have hok : ∀ k ∈ n.grid, (n.eval sg τ (n.p0.knotSlice k.1) (n.p1.knotSlice k.2)).1 = true := by
    intro k hk
    simp only [grid, List.mem_flatMap, List.mem_range, List.mem_map] at hk
    obtain ⟨i, hi, j, hj, rfl⟩ := hk
    obtain ⟨p, hp, -⟩ := C73_hull hs hn hτ hw (slice_domain hn.k0 h0 (by omega : i ≤ _))
      (slice_domain hn.k1 h1 (by omega : j ≤ _))
    exact (eval_of_vec hp).1
  have hv : ∀ i j, i ≤ n.p0.slice → j ≤ n.p1.slice →
      n.vec sg τ (n.p0.knotSlice i) (n.p1.knotSlice j) = some ((n.toPH sg τ).vert (i * (n.p1.slice + 1) + j)) := by
    intro i j hi hj
    have e := vert_loop n n.grid (fun _ => .zero) 0 hok (i * (n.p1.slice + 1) + j)
    have hg : n.grid[i * (n.p1.slice + 1) + j]? = some (i, j) := grid_get _ _ _ _ (by omega) (by omega)
    rw [hg] at e
    simp only [zero_add] at e
    have : (n.toPH sg τ).vert = (n.grid.foldl (n.vertStep sg τ) (fun _ => .zero, 0)).1 := rfl
    rw [this, e]
    exact vec_of_eval (hok (i, j) (List.mem_of_getElem? hg))
  refine ⟨rfl, fun i j => (n.toPH sg τ).vert (i * (n.p1.slice + 1) + j), fun i j hi hj => ⟨hv i j hi hj, rfl⟩, ?_⟩
  have ef : (n.toPH sg τ).face = (gridFaces n.p0.slice n.p1.slice).map fun t =>
      PH.mkFace τ (n.toPH sg τ).vert t.1 t.2.1 t.2.2 := rfl
  rw [ef, List.map_map]
  simp only [gridFaces, List.map_flatMap, Function.comp_def, List.map_cons, List.map_nil, PH.mkFace]
  have e1 : ∀ i, (i + 1) * (n.p1.slice + 1) = i * (n.p1.slice + 1) + (n.p1.slice + 1) := fun i => by ring
  simp only [e1, add_assoc]

/-! ## The closest point -/

private theorem limit_in {x a b : ℝ} (h : a ≤ b) : a ≤ zLimit x a b ∧ zLimit x a b ≤ b := by
  unfold zLimit; split_ifs <;> constructor <;> linarith

private theorem knots_dom {b : BSpline} {m : ℕ} {t : ℝ} (h : KnotsOK b m) (h1 : b.knotS ≤ t) (h2 : t ≤ b.knotE) :
    InDomain b m t := by
  have : b.knotE = b.kn m := by unfold BSpline.knotE; rw [h.num_eq]
  exact ⟨h1, this ▸ h2⟩

private theorem closest_step {p : Vec3 ℝ} (hs : IsSegment sg) (hn : NurbsOK n) (hτ : 0 ≤ τ) {s s' : ClState} {b : Bool}
    (hu : InDomain n.p0 n.n0 s.u) (hv : InDomain n.p1 n.n1 s.v) (h : n.closestStep sg τ p s = some (b, s')) :
    InDomain n.p0 n.n0 s'.u ∧ InDomain n.p1 n.n1 s'.v ∧ s'.nn ∈ nurbsSurface sg τ n := by
  have e0 : n.p0.knotS ≤ n.p0.knotE := by
    unfold BSpline.knotE; rw [hn.k0.num_eq]; exact hn.k0.wide.le
  have e1 : n.p1.knotS ≤ n.p1.knotE := by
    unfold BSpline.knotE; rw [hn.k1.num_eq]; exact hn.k1.wide.le
  unfold closestStep at h
  obtain ⟨t, ht, h⟩ := Option.bind_eq_some_iff.1 h
  have hp : t.p ∈ nurbsSurface sg τ n := ⟨s.u, s.v, hu, hv, NURBS.tspace_vec hn hs hτ hu hv ht⟩
  dsimp only at h
  split_ifs at h
  all_goals
    simp only [Option.some.injEq, Prod.mk.injEq] at h
    obtain ⟨-, rfl⟩ := h
    exact ⟨knots_dom hn.k0 (limit_in e0).1 (limit_in e0).2, knots_dom hn.k1 (limit_in e1).1 (limit_in e1).2, hp⟩

private theorem closest_loop {p : Vec3 ℝ} (hs : IsSegment sg) (hn : NurbsOK n) (hτ : 0 ≤ τ) : ∀ (k : ℕ) (s s' : ClState),
    InDomain n.p0 n.n0 s.u → InDomain n.p1 n.n1 s.v → (0 < k ∨ s.nn ∈ nurbsSurface sg τ n) →
    n.closestLoop sg τ p k s = some s' →
    InDomain n.p0 n.n0 s'.u ∧ InDomain n.p1 n.n1 s'.v ∧ s'.nn ∈ nurbsSurface sg τ n
  | 0, s, s', hu, hv, hk, h => by
    obtain rfl := Option.some.inj h
    exact ⟨hu, hv, hk.resolve_left (by simp)⟩
  | k + 1, s, s', hu, hv, _, h => by
    unfold closestLoop at h
    cases hc : n.closestStep sg τ p s with
    | none => rw [hc] at h; cases h
    | some r =>
      obtain ⟨b, r⟩ := r
      rw [hc] at h
      obtain ⟨a1, a2, a3⟩ := closest_step hs hn hτ hu hv hc
      cases b with
      | true => obtain rfl := Option.some.inj h; exact ⟨a1, a2, a3⟩
      | false => exact closest_loop hs hn hτ k r s' a1 a2 (Or.inr a3) h

/-- What `zNURBS3DClosest` answers, if it does: a point of the surface, the distance from it, and parameters in the
domain. Not claimed: that no point of the surface is closer (`C73_closest_false`) and that the parameters are those of
the point (`C73_closest_param_false`). -/
theorem C73_closest_partial (hs : IsSegment sg) (hn : NurbsOK n) (hτ : 0 ≤ τ) {iter : ℕ} (hi : 0 < iter)
    {p old q : Vec3 ℝ} {d : ℝ} (h : n.closest sg τ iter p old = some (d, q, u, v)) :
    q ∈ nurbsSurface sg τ n ∧ d = Real.sqrt ((p.x - q.x) ^ 2 + (p.y - q.y) ^ 2 + (p.z - q.z) ^ 2) ∧
      InDomain n.p0 n.n0 u ∧ InDomain n.p1 n.n1 v := by
  unfold NURBS.closest at h
  obtain ⟨s, hs', h⟩ := Option.map_eq_some_iff.1 h
  simp only [Prod.mk.injEq] at h
  obtain ⟨rfl, rfl, rfl, rfl⟩ := h
  have e0 : n.p0.knotS ≤ n.p0.knotE := by
    unfold BSpline.knotE; rw [hn.k0.num_eq]; exact hn.k0.wide.le
  have e1 : n.p1.knotS ≤ n.p1.knotE := by
    unfold BSpline.knotE; rw [hn.k1.num_eq]; exact hn.k1.wide.le
  obtain ⟨a1, a2, a3⟩ := closest_loop hs hn hτ iter _ s (knots_dom hn.k0 (by dsimp only; linarith) (by dsimp only; linarith))
    (knots_dom hn.k1 (by dsimp only; linarith) (by dsimp only; linarith)) (Or.inl hi) hs'
  refine ⟨a3, ?_, a1, a2⟩
  simp only [Vec3.dist, Vec3.sqrDist, Vec3.norm, Vec3.sqrNorm, Vec3.inner, Vec3.sub]
  congr 1; ring

/-- A flat patch: the unit square. -/
private noncomputable def flat : NURBS :=
  ⟨⟨1, [0, 0, 1, 1], 2⟩, ⟨1, [0, 0, 1, 1], 2⟩, 2, 2, fun i j => ⟨i, j, 0⟩, fun _ _ => 1⟩

private theorem k2 (s : ℕ) : KnotsOK ⟨1, [0, 0, 1, 1], s⟩ 2 := ⟨rfl, by simp, by simp [BSpline.kn]⟩
private theorem k3 (s : ℕ) : KnotsOK ⟨2, [0, 0, 0, 1, 1, 1], s⟩ 3 := ⟨rfl, by simp, by simp [BSpline.kn]⟩
private theorem seg2 (hs : IsSegment sg) {s : ℕ} {t : ℝ} (h0 : 0 ≤ t) (h1 : t ≤ 1) : sg ⟨1, [0, 0, 1, 1], s⟩ t = 1 := by
  obtain ⟨a, b, -⟩ := hs _ _ t (k2 s) ⟨by simpa [BSpline.kn] using h0, by simpa [BSpline.kn] using h1⟩
  dsimp only at a; omega
private theorem seg3 (hs : IsSegment sg) {s : ℕ} {t : ℝ} (h0 : 0 ≤ t) (h1 : t ≤ 1) : sg ⟨2, [0, 0, 0, 1, 1, 1], s⟩ t = 2 := by
  obtain ⟨a, b, -⟩ := hs _ _ t (k3 s) ⟨by simpa [BSpline.kn] using h0, by simpa [BSpline.kn] using h1⟩
  dsimp only at a; omega
private theorem b2 (s : ℕ) (t : ℝ) : (BSpline.mk 1 [0, 0, 1, 1] s).basis t 1 1 0 = 1 - t ∧
    (BSpline.mk 1 [0, 0, 1, 1] s).basis t 1 1 1 = t ∧ (BSpline.mk 1 [0, 0, 1, 1] s).basisDiff t 1 1 0 = -1 ∧
    (BSpline.mk 1 [0, 0, 1, 1] s).basisDiff t 1 1 1 = 1 := by
  simp [BSpline.basis, BSpline.basisDiff, BSpline.ratio, BSpline.kn]
private theorem b3 (s : ℕ) (t : ℝ) : (BSpline.mk 2 [0, 0, 0, 1, 1, 1] s).basis t 2 2 0 = (1 - t) ^ 2 ∧
    (BSpline.mk 2 [0, 0, 0, 1, 1, 1] s).basis t 2 2 1 = 2 * t * (1 - t) ∧
    (BSpline.mk 2 [0, 0, 0, 1, 1, 1] s).basis t 2 2 2 = t ^ 2 ∧
    (BSpline.mk 2 [0, 0, 0, 1, 1, 1] s).basisDiff t 2 2 0 = -2 * (1 - t) ∧
    (BSpline.mk 2 [0, 0, 0, 1, 1, 1] s).basisDiff t 2 2 1 = 2 - 4 * t ∧
    (BSpline.mk 2 [0, 0, 0, 1, 1, 1] s).basisDiff t 2 2 2 = 2 * t := by
  refine ⟨?_, ?_, ?_, ?_, ?_, ?_⟩ <;>
    simp [BSpline.basis, BSpline.basisDiff, BSpline.ratio, BSpline.kn] <;> ring
private theorem flat_ok : NurbsOK flat := ⟨k2 2, k2 2⟩

private theorem unitOr_x (hτ : τ < 1) {a : ℝ} (ha : 1 ≤ a) : unitOr τ ⟨a, 0, 0⟩ = ⟨1, 0, 0⟩ := by
  have h : ¬ (⟨a, 0, 0⟩ : Vec3 ℝ).isTol τ := by
    simp only [Vec3.isTol, zIsTol]
    rintro ⟨h, -⟩
    linarith [le_abs_self a]
  have h0 : a ≠ 0 := by linarith
  have hs : Real.sqrt (a * a) = a := Real.sqrt_mul_self (by linarith)
  rw [unitOr, if_neg h, Vec3.normalize, if_neg h]
  simp [Vec3.normalizeNC, Vec3.mul, Vec3.norm, Vec3.sqrNorm, Vec3.inner, hs, h0]

private theorem unitOr_y (hτ : τ < 1) : unitOr τ ⟨0, 1, 0⟩ = ⟨0, 1, 0⟩ := by
  have h : ¬ (⟨0, 1, 0⟩ : Vec3 ℝ).isTol τ := by
    simp only [Vec3.isTol, zIsTol]
    rintro ⟨-, h, -⟩
    rw [abs_one] at h; linarith
  rw [unitOr, if_neg h, Vec3.normalize, if_neg h]
  simp [Vec3.normalizeNC, Vec3.mul, Vec3.norm, Vec3.sqrNorm, Vec3.inner]

private theorem unitOr_z (hτ : τ < 1) : unitOr τ ⟨0, 0, 1⟩ = ⟨0, 0, 1⟩ := by
  have h : ¬ (⟨0, 0, 1⟩ : Vec3 ℝ).isTol τ := by
    simp only [Vec3.isTol, zIsTol]
    rintro ⟨-, -, h⟩
    rw [abs_one] at h; linarith
  rw [unitOr, if_neg h, Vec3.normalize, if_neg h]
  simp [Vec3.normalizeNC, Vec3.mul, Vec3.norm, Vec3.sqrNorm, Vec3.inner]

private theorem flat_vec (hs : IsSegment sg) (hτ : τ < 1) (hu0 : 0 ≤ u) (hu1 : u ≤ 1) (hv0 : 0 ≤ v) (hv1 : v ≤ 1) :
    flat.vec sg τ u v = some ⟨u, v, 0⟩ := by
  rw [vec_sums]
  have e : flat.sums u v (sg flat.p0 u) (sg flat.p1 v) = (1, ⟨u, v, 0⟩) := by
    rw [show sg flat.p0 u = 1 from seg2 hs hu0 hu1, show sg flat.p1 v = 1 from seg2 hs hv0 hv1]
    obtain ⟨c1, c2, -⟩ := b2 2 u
    obtain ⟨d1, d2, -⟩ := b2 2 v
    simp [NURBS.sums, rowSum, span, flat, c1, c2, d1, d2, List.range_succ, Vec3.cat, Vec3.zero]
    ring
  rw [e, if_neg (by rw [abs_one]; push Not; exact ⟨hτ, one_ne_zero⟩)]
  simp

private theorem flat_tspace (hs : IsSegment sg) (hτ : τ < 1) (hu0 : 0 ≤ u) (hu1 : u ≤ 1) (hv0 : 0 ≤ v) (hv1 : v ≤ 1) :
    ∃ m, flat.vecTSpace sg τ u v = some ⟨⟨u, v, 0⟩, m, ⟨1, 0, 0⟩, ⟨0, 1, 0⟩⟩ := by
  have e : flat.tSums u v (sg flat.p0 u) (sg flat.p1 v) = ⟨1, 0, 0, ⟨u, v, 0⟩, ⟨1, 0, 0⟩, ⟨0, 1, 0⟩⟩ := by
    rw [show sg flat.p0 u = 1 from seg2 hs hu0 hu1, show sg flat.p1 v = 1 from seg2 hs hv0 hv1]
    obtain ⟨c1, c2, c3, c4⟩ := b2 2 u
    obtain ⟨d1, d2, d3, d4⟩ := b2 2 v
    simp [tSums, tRow, span, flat, c1, c2, c3, c4, d1, d2, d3, d4, List.range_succ, Vec3.cat, Vec3.zero]
    ring
  have := NURBS.tspace_of_sums e (τ := τ) (p := ⟨u, v, 0⟩) (tu := ⟨1, 0, 0⟩) (tv := ⟨0, 1, 0⟩)
    (by simp only [zIsTol, abs_one]; linarith) (by simp [Vec3.div, Vec3.mul]) (by simp [Vec3.cat]) (by simp [Vec3.cat])
  rw [unitOr_x hτ le_rfl, unitOr_y hτ] at this
  exact ⟨_, this⟩

private theorem ite_cases {c : Prop} {_ : Decidable c} (A B : ClState) (P : ClState → Prop) (hA : P A) (hB : P B) :
    ∃ b s', (if c then some (true, A) else some (false, B)) = some (b, s') ∧ P s' := by
  split_ifs
  · exact ⟨_, _, rfl, hA⟩
  · exact ⟨_, _, rfl, hB⟩

private theorem flat_step (hs : IsSegment sg) (hτ : τ < 1) {s : ClState} (h0 : 1 / 2 ≤ s.u) (h1 : s.u < 9 / 10)
    (hv : s.v = 1 / 2) : ∃ b s', flat.closestStep sg τ ⟨9 / 10, 1 / 2, 0⟩ s = some (b, s') ∧
      s'.nn = ⟨s.u, 1 / 2, 0⟩ ∧ s.u < s'.u ∧ s'.u < 9 / 10 ∧ s'.v = 1 / 2 := by
  obtain ⟨m, hm⟩ := flat_tspace (u := s.u) (v := s.v) hs hτ (by linarith) (by linarith) (by linarith) (by linarith)
  have hz : Real.sqrt ((9 / 10 - s.u) * (9 / 10 - s.u)) = 9 / 10 - s.u := Real.sqrt_mul_self (by linarith)
  have hS : flat.p0.knotS = 0 := by simp [flat, BSpline.knotS, BSpline.kn]
  have hE : flat.p0.knotE = 1 := by simp [flat, BSpline.knotE, BSpline.num, BSpline.kn]
  have hS' : flat.p1.knotS = 0 := by simp [flat, BSpline.knotS, BSpline.kn]
  have hE' : flat.p1.knotE = 1 := by simp [flat, BSpline.knotE, BSpline.num, BSpline.kn]
  unfold closestStep
  rw [hm]
  simp only [Option.bind_some, Vec3.sub, Vec3.norm, Vec3.sqrNorm, Vec3.inner, hv, sub_self, mul_zero, add_zero, zero_mul, mul_one,
    zero_add, hz, sub_zero, one_mul, hS, hE, hS', hE']
  rw [if_neg (by norm_num)]
  have hl : zLimit (s.u + (1 + (9 / 10 - s.u)) * (9 / 10 - s.u) * (1 / 10 / 1)) 0 1 =
      s.u + (1 + (9 / 10 - s.u)) * (9 / 10 - s.u) * (1 / 10 / 1) := by
    unfold zLimit
    rw [if_neg (by nlinarith), if_neg (by nlinarith)]
  have hl' : zLimit (1 / 2 : ℝ) 0 1 = 1 / 2 := by
    unfold zLimit; norm_num
  rw [hl, hl']
  refine ite_cases _ _ _ ⟨rfl, ?_, ?_, rfl⟩ ⟨rfl, ?_, ?_, rfl⟩ <;> dsimp only <;> nlinarith

private theorem flat_loop (hs : IsSegment sg) (hτ : τ < 1) : ∀ (k : ℕ) (s : ClState), 1 / 2 ≤ s.u → s.u < 9 / 10 →
    s.v = 1 / 2 → (0 < k ∨ ∃ a, s.nn = ⟨a, 1 / 2, 0⟩ ∧ a < s.u) →
    ∃ s', flat.closestLoop sg τ ⟨9 / 10, 1 / 2, 0⟩ k s = some s' ∧ 1 / 2 ≤ s'.u ∧ s'.u < 9 / 10 ∧ s'.v = 1 / 2 ∧
      ∃ a, s'.nn = ⟨a, 1 / 2, 0⟩ ∧ a < s'.u
  | 0, s, h0, h1, hv, hk => ⟨s, rfl, h0, h1, hv, hk.resolve_left (by simp)⟩
  | k + 1, s, h0, h1, hv, _ => by
    obtain ⟨b, s', e, a1, a2, a3, a4⟩ := flat_step hs hτ h0 h1 hv
    unfold closestLoop
    rw [e]
    cases b with
    | true => exact ⟨s', rfl, by linarith, a3, a4, _, a1, a2⟩
    | false => exact flat_loop hs hτ k s' (by linarith) a3 a4 (Or.inr ⟨_, a1, a2⟩)

/-- The parameters that `zNURBS3DClosest` stores need not be those of the point that it stores: it computes the point
before it moves the parameters. On the unit square they never are, for a point inside the square, whatever the number
of iterations. -/
theorem C73_closest_param_false : ∃ (n : NURBS) (p : Vec3 ℝ), NurbsOK n ∧ (∀ i j, n.w i j = 1) ∧
    ∀ sg, IsSegment sg → ∀ τ, 0 ≤ τ → τ < 1 → ∀ iter, 0 < iter → ∀ old, ∃ d q u v,
      n.closest sg τ iter p old = some (d, q, u, v) ∧ (n.vec sg τ u v).isSome ∧ n.vec sg τ u v ≠ some q := by
  refine ⟨flat, ⟨9 / 10, 1 / 2, 0⟩, flat_ok, fun _ _ => rfl, fun sg hs τ _ hτ iter hi old => ?_⟩
  have hS : flat.p0.knotS = 0 := by simp [flat, BSpline.knotS, BSpline.kn]
  have hE : flat.p0.knotE = 1 := by simp [flat, BSpline.knotE, BSpline.num, BSpline.kn]
  have hS' : flat.p1.knotS = 0 := by simp [flat, BSpline.knotS, BSpline.kn]
  have hE' : flat.p1.knotE = 1 := by simp [flat, BSpline.knotE, BSpline.num, BSpline.kn]
  unfold NURBS.closest
  rw [hS, hE, hS', hE']
  dsimp only
  obtain ⟨s', e, b1, b2, b3, a, b4, b5⟩ := flat_loop hs hτ iter
    ⟨1 / 2 * (0 + 1), 1 / 2 * (0 + 1), 1 / 2 * (0 + 1), 1 / 2 * (0 + 1), none, old⟩ (by norm_num) (by norm_num) (by norm_num) (Or.inl hi)
  rw [e]
  refine ⟨_, _, _, _, rfl, ?_, ?_⟩
  · rw [flat_vec hs hτ (by linarith) (by linarith) (by linarith) (by linarith)]; rfl
  · rw [flat_vec hs hτ (by linarith) (by linarith) (by linarith) (by linarith), b4]
    intro h
    have := congrArg Vec3.x (Option.some.inj h)
    dsimp only at this
    linarith

/-- A sheet with the shape of a parabola. -/
private noncomputable def sheet : NURBS :=
  ⟨⟨2, [0, 0, 0, 1, 1, 1], 2⟩, ⟨1, [0, 0, 1, 1], 2⟩, 3, 2,
    fun i j => ⟨(i : ℝ) - 1, if i = 1 then -1 else 1, j⟩, fun _ _ => 1⟩
private theorem sheet_ok : NurbsOK sheet := ⟨k3 2, k2 2⟩

private theorem sheet_vec (hs : IsSegment sg) (hτ : τ < 1) (hu0 : 0 ≤ u) (hu1 : u ≤ 1) (hv0 : 0 ≤ v) (hv1 : v ≤ 1) :
    sheet.vec sg τ u v = some ⟨2 * u - 1, (2 * u - 1) ^ 2, v⟩ := by
  rw [vec_sums]
  have e : sheet.sums u v (sg sheet.p0 u) (sg sheet.p1 v) = (1, ⟨2 * u - 1, (2 * u - 1) ^ 2, v⟩) := by
    rw [show sg sheet.p0 u = 2 from seg3 hs hu0 hu1, show sg sheet.p1 v = 1 from seg2 hs hv0 hv1]
    obtain ⟨c1, c2, c3, -⟩ := b3 2 u
    obtain ⟨d1, d2, -⟩ := b2 2 v
    simp [NURBS.sums, rowSum, span, sheet, c1, c2, c3, d1, d2, List.range_succ, Vec3.cat, Vec3.zero]
    refine ⟨?_, ?_, ?_, ?_⟩ <;> ring
  rw [e, if_neg (by rw [abs_one]; push Not; exact ⟨hτ, one_ne_zero⟩)]
  simp

private theorem sheet_tspace (hs : IsSegment sg) (hτ : τ < 1) :
    ∃ m, sheet.vecTSpace sg τ (1 / 2) (1 / 2) = some ⟨⟨0, 0, 1 / 2⟩, m, ⟨1, 0, 0⟩, ⟨0, 0, 1⟩⟩ := by
  have e : sheet.tSums (1 / 2) (1 / 2) (sg sheet.p0 (1 / 2)) (sg sheet.p1 (1 / 2)) =
      ⟨1, 0, 0, ⟨0, 0, 1 / 2⟩, ⟨2, 0, 0⟩, ⟨0, 0, 1⟩⟩ := by
    rw [show sg sheet.p0 (1 / 2) = 2 from seg3 hs (by norm_num) (by norm_num),
      show sg sheet.p1 (1 / 2) = 1 from seg2 hs (by norm_num) (by norm_num)]
    obtain ⟨c1, c2, c3, c4, c5, c6⟩ := b3 2 (1 / 2)
    obtain ⟨d1, d2, d3, d4⟩ := b2 2 (1 / 2)
    simp only [tSums, tRow, span, sheet, c1, c2, c3, c4, c5, c6, d1, d2, d3, d4, List.range_succ, Vec3.cat, Vec3.zero,
      List.range_zero, List.nil_append, List.cons_append, List.map_cons, List.map_nil, List.foldl_cons, List.foldl_nil]
    norm_num [c1, c2, c3, c4, c5, c6, d1, d2, d3, d4]
  have := NURBS.tspace_of_sums e (τ := τ) (p := ⟨0, 0, 1 / 2⟩) (tu := ⟨2, 0, 0⟩) (tv := ⟨0, 0, 1⟩)
    (by simp only [zIsTol, abs_one]; linarith) (by simp [Vec3.div, Vec3.mul]) (by simp [Vec3.cat]) (by simp [Vec3.cat])
  rw [unitOr_x hτ one_le_two, unitOr_z hτ] at this
  exact ⟨_, this⟩

/-- The point that `zNURBS3DClosest` finds need not be the closest one: it takes a stationary point of the distance. On a
sheet bent as a parabola the search stays in the middle, although the edges of the sheet are closer. -/
theorem C73_closest_false : ∃ (n : NURBS) (p : Vec3 ℝ), NurbsOK n ∧ (∀ i j, n.w i j = 1) ∧
    ∀ sg, IsSegment sg → ∀ τ, 0 ≤ τ → τ < 1 → ∀ iter, 0 < iter → ∀ old, ∃ d q u v,
      n.closest sg τ iter p old = some (d, q, u, v) ∧
      ∃ q' ∈ nurbsSurface sg τ n, Real.sqrt ((p.x - q'.x) ^ 2 + (p.y - q'.y) ^ 2 + (p.z - q'.z) ^ 2) < d := by
  refine ⟨sheet, ⟨0, 2, 1 / 2⟩, sheet_ok, fun _ _ => rfl, fun sg hs τ h0 hτ iter hi old => ?_⟩
  have hS : sheet.p0.knotS = 0 := by simp [sheet, BSpline.knotS, BSpline.kn]
  have hE : sheet.p0.knotE = 1 := by simp [sheet, BSpline.knotE, BSpline.num, BSpline.kn]
  have hS' : sheet.p1.knotS = 0 := by simp [sheet, BSpline.knotS, BSpline.kn]
  have hE' : sheet.p1.knotE = 1 := by simp [sheet, BSpline.knotE, BSpline.num, BSpline.kn]
  obtain ⟨k, rfl⟩ : ∃ k, iter = k + 1 := ⟨iter - 1, by omega⟩
  obtain ⟨m, hm⟩ := sheet_tspace hs hτ
  have st : sheet.closestStep sg τ ⟨0, 2, 1 / 2⟩ ⟨1 / 2, 1 / 2, 1 / 2, 1 / 2, none, old⟩ =
      some (true, ⟨1 / 2, 1 / 2, 1 / 2, 1 / 2, none, ⟨0, 0, 1 / 2⟩⟩) := by
    unfold closestStep
    dsimp only
    rw [hm]
    have hl' : zLimit (1 / 2 : ℝ) 0 1 = 1 / 2 := by
      unfold zLimit; norm_num
    simp only [Option.bind_some, Vec3.sub, Vec3.inner, sub_self, mul_zero, add_zero, zero_mul, mul_one,
      zero_add, sub_zero, hS, hE, hS', hE', hl']
    rw [if_neg one_ne_zero, if_pos (Or.inl ⟨by simpa [zIsTol] using h0, by simpa [zIsTol] using h0⟩)]
  have : sheet.closest sg τ (k + 1) ⟨0, 2, 1 / 2⟩ old = some (Vec3.dist ⟨0, 2, 1 / 2⟩ ⟨0, 0, 1 / 2⟩, ⟨0, 0, 1 / 2⟩, 1 / 2, 1 / 2) := by
    unfold NURBS.closest
    rw [hS, hE, hS', hE', show (1 / 2 * (0 + 1) : ℝ) = 1 / 2 by norm_num]
    unfold closestLoop
    dsimp only
    rw [st]
    rfl
  refine ⟨_, _, _, _, this, ⟨1, 1, 1 / 2⟩, ⟨1, 1 / 2, ?_, ?_, ?_⟩, ?_⟩
  · constructor <;> simp [sheet, BSpline.kn]
  · constructor <;> norm_num [sheet, BSpline.kn]
  · rw [sheet_vec hs hτ zero_le_one le_rfl (by norm_num) (by norm_num)]; norm_num
  · simp only [Vec3.dist, Vec3.sqrDist, Vec3.norm, Vec3.sqrNorm, Vec3.inner, Vec3.sub]
    exact Real.sqrt_lt_sqrt (by norm_num) (by norm_num)

/-! ## The polyhedron of a surface with a zero weight -/

/-- A surface in the plane `x = 1`; the weights in the middle are zero. -/
private noncomputable def hole : NURBS :=
  ⟨⟨1, [0, 0, 1, 1], 1⟩, ⟨1, [0, 0, 1, 2, 2], 2⟩, 2, 3, fun i j => ⟨1, i, j⟩, fun _ j => if j = 1 then 0 else 1⟩

private theorem hole_k1 : KnotsOK hole.p1 3 := ⟨rfl, by simp [hole], by simp [hole, BSpline.kn]⟩
private theorem hole_ok : NurbsOK hole := ⟨k2 1, hole_k1⟩

private theorem hole_plane (hs : IsSegment sg) {p : Vec3 ℝ} (h : p ∈ nurbsSurface sg τ hole) : p.x = 1 := by
  obtain ⟨u, v, hu, hv, h⟩ := h
  rw [eval_eq sg τ u v (hole_ok.inside hs hu hv)] at h
  split_ifs at h with h1
  obtain rfl := Option.some.inj h
  push Not at h1
  have : (fun i j => hole.w i j * (hole.cp i j).x) = hole.w := by
    funext i j; simp [hole]
  dsimp only
  rw [this]
  exact div_self h1.2

private theorem hole_den (hs : IsSegment sg) (hu0 : 0 ≤ u) (hu1 : u ≤ 1) :
    (hole.sums u 0 (sg hole.p0 u) (sg hole.p1 0)).1 = 1 ∧ (hole.sums u 1 (sg hole.p0 u) (sg hole.p1 1)).1 = 0 ∧
    (hole.sums u 2 (sg hole.p0 u) (sg hole.p1 2)).1 = 1 := by
  rw [show sg hole.p0 u = 1 from seg2 hs hu0 hu1]
  obtain ⟨c1, c2, -⟩ := b2 1 u
  have s0 : sg hole.p1 0 = 1 := by
    obtain ⟨a, b, c, d, e⟩ := hs hole.p1 3 0 hole_k1 ⟨by simp [hole, BSpline.kn], by simp [hole, BSpline.kn]⟩
    have : sg hole.p1 0 = 1 ∨ sg hole.p1 0 = 2 := by
      have : hole.p1.order = 1 := rfl
      omega
    rcases this with h | h
    · exact h
    · rw [h] at d; norm_num [hole, BSpline.kn] at d
  have s2 : sg hole.p1 2 = 2 := by
    obtain ⟨a, b, c, d, e⟩ := hs hole.p1 3 2 hole_k1 ⟨by simp [hole, BSpline.kn], by simp [hole, BSpline.kn]⟩
    have : sg hole.p1 2 = 1 ∨ sg hole.p1 2 = 2 := by
      have : hole.p1.order = 1 := rfl
      omega
    rcases this with h | h
    · rw [h] at e; norm_num [hole, BSpline.kn] at e
    · exact h
  have s1 : sg hole.p1 1 = 1 ∨ sg hole.p1 1 = 2 := by
    obtain ⟨a, b, c, d, e⟩ := hs hole.p1 3 1 hole_k1 ⟨by simp [hole, BSpline.kn], by simp [hole, BSpline.kn]⟩
    have : hole.p1.order = 1 := rfl
    omega
  refine ⟨?_, ?_, ?_⟩
  · rw [s0]
    simp [NURBS.sums, rowSum, span, hole, c1, c2, List.range_succ]
    simp [BSpline.basis, BSpline.ratio, BSpline.kn]
  · rcases s1 with h | h <;> rw [h]
    · simp [NURBS.sums, rowSum, span, hole, c1, c2, List.range_succ]
      simp [BSpline.basis, BSpline.ratio, BSpline.kn]
    · simp [NURBS.sums, rowSum, span, hole, c1, c2, List.range_succ]
      norm_num [BSpline.basis, BSpline.ratio, BSpline.kn]
  · rw [s2]
    simp [NURBS.sums, rowSum, span, hole, c1, c2, List.range_succ]
    norm_num [BSpline.basis, BSpline.ratio, BSpline.kn]

/-- With a zero weight a face of the polyhedron can have a vertex far from the surface: where the evaluation fails the
place in the buffer is used again, so that the later vertices are shifted, and the last ones are never written. -/
theorem C73_ph_false : ∃ n, NurbsOK n ∧ (∀ i j, 0 ≤ n.w i j) ∧ 0 < n.p0.slice ∧ 0 < n.p1.slice ∧
    ∀ sg, IsSegment sg → ∀ τ, 0 ≤ τ → τ < 1 → ∃ f ∈ (n.toPH sg τ).face,
      ∀ p ∈ nurbsSurface sg τ n, 1 ≤ |p.x - ((n.toPH sg τ).vert f.i2).x| := by
  refine ⟨hole, hole_ok, ?_, by simp [hole], by simp [hole], fun sg hs τ h0 hτ => ?_⟩
  · intro i j
    simp only [hole]
    split_ifs <;> norm_num
  have u0 : hole.p0.knotSlice 0 = 0 := by simp [hole, BSpline.knotSlice, BSpline.knotS, BSpline.kn]
  have u1 : hole.p0.knotSlice 1 = 1 := by simp [hole, BSpline.knotSlice, BSpline.knotS, BSpline.knotE, BSpline.num, BSpline.kn]
  have v0 : hole.p1.knotSlice 0 = 0 := by simp [hole, BSpline.knotSlice, BSpline.knotS, BSpline.kn]
  have v1 : hole.p1.knotSlice 1 = 1 := by simp [hole, BSpline.knotSlice, BSpline.knotS, BSpline.knotE, BSpline.num, BSpline.kn]
  have v2 : hole.p1.knotSlice 2 = 2 := by simp [hole, BSpline.knotSlice, BSpline.knotS, BSpline.knotE, BSpline.num, BSpline.kn]
  have ev : ∀ u, 0 ≤ u → u ≤ 1 → (hole.eval sg τ u 0).1 = true ∧ (hole.eval sg τ u 1).1 = false ∧ (hole.eval sg τ u 2).1 = true := by
    intro u hu0 hu1
    obtain ⟨d0, d1, d2⟩ := hole_den (u := u) hs hu0 hu1
    refine ⟨?_, ?_, ?_⟩ <;> unfold NURBS.eval <;> dsimp only
    · rw [d0, if_neg (by simpa [zIsTol] using hτ)]; simp [Vec3.div]
    · rw [d1, if_pos (by simpa [zIsTol] using h0)]
    · rw [d2, if_neg (by simpa [zIsTol] using hτ)]; simp [Vec3.div]
  obtain ⟨p0, p1, p2⟩ := ev 0 le_rfl zero_le_one
  obtain ⟨q0, q1, q2⟩ := ev 1 zero_le_one le_rfl
  have hg : hole.grid = [(0, 0), (0, 1), (0, 2), (1, 0), (1, 1), (1, 2)] := by
    simp [NURBS.grid, hole, List.range_succ]
  have hv : (hole.toPH sg τ).vert 5 = .zero := by
    have : (hole.toPH sg τ).vert = (hole.grid.foldl (hole.vertStep sg τ) (fun _ => .zero, 0)).1 := rfl
    rw [this, hg]
    simp [vertStep, u0, u1, v0, v1, v2, p0, p1, p2, q0, q1, q2, Function.update_apply]
  refine ⟨PH.mkFace τ (hole.toPH sg τ).vert 1 4 5, ?_, fun p hp => ?_⟩
  · have ef : (hole.toPH sg τ).face = (gridFaces hole.p0.slice hole.p1.slice).map fun t =>
      PH.mkFace τ (hole.toPH sg τ).vert t.1 t.2.1 t.2.2 := rfl
    rw [ef, List.mem_map]
    exact ⟨(1, 4, 5), by simp [gridFaces, hole, List.range_succ], rfl⟩
  · rw [show (PH.mkFace τ (hole.toPH sg τ).vert 1 4 5).i2 = 5 from rfl, hv]
    simp [Vec3.zero, hole_plane hs hp]

/-! ## Text -/

private theorem read_lines (n0 n1 : ℕ) (cp : ℕ → ℕ → Vec3 ℝ) (w : ℕ → ℕ → ℝ) : ∀ (l : List (ℕ × ℕ)) (a),
    (∀ k ∈ l, k.1 < n0 ∧ k.2 < n1) →
    ∃ b, (l.map fun k => (k.1, k.2, w k.1 k.2, cp k.1 k.2)).foldlM (readCP n0 n1) a = some b ∧
      ∀ i j, ((i, j) ∈ l → b.1 i j = cp i j ∧ b.2 i j = w i j) ∧ ((i, j) ∉ l → b.1 i j = a.1 i j ∧ b.2 i j = a.2 i j)
  | [], a, _ => ⟨a, rfl, fun i j => by simp⟩
  | k :: l, a, h => by
    obtain ⟨b, h1, h2⟩ := read_lines n0 n1 cp w l (fun i j => if i = k.1 ∧ j = k.2 then cp k.1 k.2 else a.1 i j,
      fun i j => if i = k.1 ∧ j = k.2 then w k.1 k.2 else a.2 i j) fun k hk => h k (by simp [hk])
    refine ⟨b, ?_, fun i j => ?_⟩
    · rw [List.map_cons, List.foldlM_cons, readCP, if_pos (h k (by simp))]
      exact h1
    · obtain ⟨c1, c2⟩ := h2 i j
      by_cases hm : (i, j) ∈ l
      · exact ⟨fun _ => c1 hm, fun hc => absurd (List.mem_cons_of_mem _ hm) hc⟩
      · obtain ⟨d1, d2⟩ := c2 hm
        by_cases he : (i, j) = k
        · subst he
          refine ⟨fun _ => ⟨by rw [d1]; simp, by rw [d2]; simp⟩, fun hc => absurd (by simp) hc⟩
        · have hne : ¬ (i = k.1 ∧ j = k.2) := fun ⟨x, y⟩ => he (by rw [x, y])
          refine ⟨fun hc => ?_, fun _ => ⟨by rw [d1]; simp [hne], by rw [d2]; simp [hne]⟩⟩
          rcases List.mem_cons.1 hc with hc | hc
          · exact absurd hc he
          · exact absurd hc hm

/-- A surface of positive orders is read back from its own text. -/
theorem C73_text_partial (hn : NurbsOK n) (h0 : 0 < n.p0.order) (h1 : 0 < n.p1.order) :
    ∃ m, NURBS.read n.print = some m ∧ m.p0 = n.p0 ∧ m.p1 = n.p1 ∧ m.n0 = n.n0 ∧ m.n1 = n.n1 ∧
      ∀ i < n.n0, ∀ j < n.n1, m.cp i j = n.cp i j ∧ m.w i j = n.w i j := by
  obtain ⟨b, e1, e2⟩ := read_lines n.n0 n.n1 n.cp n.w
    ((List.range n.n0).flatMap fun i => (List.range n.n1).map fun j => (i, j)) (fun _ _ => .zero, fun _ _ => 0) (by
      intro k hk
      simp only [List.mem_flatMap, List.mem_range, List.mem_map] at hk
      obtain ⟨i, hi, j, hj, rfl⟩ := hk
      exact ⟨hi, hj⟩)
  have ec : n.print.cps = (((List.range n.n0).flatMap fun i => (List.range n.n1).map fun j => (i, j))).map
      fun k => (k.1, k.2, n.w k.1 k.2, n.cp k.1 k.2) := by
    simp [print, List.map_flatMap, List.map_map, Function.comp_def]
  have l0 := hn.k0.len
  have l1 := hn.k1.len
  refine ⟨⟨⟨n.p0.knot.length - n.n0 - 1, n.p0.knot, n.p0.slice⟩, ⟨n.p1.knot.length - n.n1 - 1, n.p1.knot, n.p1.slice⟩,
    n.n0, n.n1, b.1, b.2⟩, ?_, ?_, ?_, rfl, rfl, ?_⟩
  · unfold NURBS.read
    rw [ec]
    show Option.bind (List.foldlM (readCP n.n0 n.n1) _ _) _ = _
    rw [e1]
    show (if ((n.p0.knot.length : ℕ) : ℤ) - n.n0 - 1 ≤ 0 ∨ ((n.p1.knot.length : ℕ) : ℤ) - n.n1 - 1 ≤ 0 then none else _) = _
    rw [if_neg (by omega)]
    rfl
  · ext <;> simp [l0]
    omega
  · ext <;> simp [l1]
    omega
  · intro i hi j hj
    exact (e2 i j).1 (by simp [hi, hj])

/-- A curve is never read back: the test rejects the order 0 of its first axis, with which `zNURBS3D1Alloc` makes it. -/
theorem C73_text_curve_false (hn : NurbsOK n) (h0 : n.p0.order = 0) : NURBS.read n.print = none := by
  unfold NURBS.read
  have l0 := hn.k0.len
  have : ((n.print.uknot.length : ℕ) : ℤ) - n.print.size.1 - 1 ≤ 0 := by
    show ((n.p0.knot.length : ℕ) : ℤ) - n.n0 - 1 ≤ 0
    omega
  cases n.print.cps.foldlM (readCP n.print.size.1 n.print.size.2) (fun _ _ => .zero, fun _ _ => 0) with
  | none => rfl
  | some a => exact if_pos (Or.inl this)

/-! ## The hypotheses can be met -/

example : ∃ (sg : BSpline → ℝ → ℕ) (n : NURBS), IsSegment sg ∧ NurbsOK n ∧ Clamped n.p0 n.n0 ∧ Clamped n.p1 n.n1 ∧
    0 < n.p0.order ∧ 0 < n.p1.order ∧ 0 < n.p0.slice ∧ 0 < n.p1.slice ∧ (∀ i < n.n0, ∀ j < n.n1, (1 / 1000 : ℝ) < n.w i j) ∧
    InDomain n.p0 n.n0 (1 / 3) ∧ InDomain n.p1 n.n1 (1 / 3) ∧ (∀ k ∈ n.p0.knot, k ≠ 1 / 3) ∧ (∀ k ∈ n.p1.knot, k ≠ 1 / 3) := by
  obtain ⟨sg, hs⟩ := exists_segment
  refine ⟨sg, sheet, hs, sheet_ok, ⟨?_, ?_, ?_, ?_⟩, ⟨?_, ?_, ?_, ?_⟩, by simp [sheet], by simp [sheet], by simp [sheet], by simp [sheet], ?_, ?_, ?_, ?_, ?_⟩
  · intro i hi
    have : i = 0 ∨ i = 1 ∨ i = 2 := by simp only [sheet] at hi; omega
    rcases this with rfl | rfl | rfl <;> simp [sheet, BSpline.kn]
  · simp [sheet, BSpline.kn]
  · intro i h1 h2
    have : i = 3 ∨ i = 4 ∨ i = 5 := by simp only [sheet] at h1 h2; omega
    rcases this with rfl | rfl | rfl <;> simp [sheet, BSpline.kn]
  · simp [sheet, BSpline.kn]
  · intro i hi
    have : i = 0 ∨ i = 1 := by simp only [sheet] at hi; omega
    rcases this with rfl | rfl <;> simp [sheet, BSpline.kn]
  · simp [sheet, BSpline.kn]
  · intro i h1 h2
    have : i = 2 ∨ i = 3 := by simp only [sheet] at h1 h2; omega
    rcases this with rfl | rfl <;> simp [sheet, BSpline.kn]
  · simp [sheet, BSpline.kn]
  · intro i _ j _; norm_num [sheet]
  · constructor <;> norm_num [sheet, BSpline.kn]
  · constructor <;> norm_num [sheet, BSpline.kn]
  · norm_num [sheet]
  · norm_num [sheet]

/-- `C73_closest_partial` applies: the search answers. -/
example : ∃ (sg : BSpline → ℝ → ℕ) (n : NURBS) (d u v : ℝ) (p q : Vec3 ℝ), IsSegment sg ∧ NurbsOK n ∧
    n.closest sg 0 5 p .zero = some (d, q, u, v) := by
  obtain ⟨sg, hs⟩ := exists_segment
  obtain ⟨n, p, h1, -, h2⟩ := C73_closest_false
  obtain ⟨d, q, u, v, h3, -⟩ := h2 sg hs 0 le_rfl one_pos 5 (by norm_num) .zero
  exact ⟨sg, n, d, u, v, p, q, hs, h1, h3⟩

/-- `C73_text_curve_false` applies: curves made by `zNURBS3D1Alloc`, src/zeo_nurbs3d.c. -/
example : ∃ n, NURBS.alloc 1 3 0 2 = some n ∧ NurbsOK n ∧ n.p0.order = 0 := by
  have := C73_alloc 1 3 0 2
  obtain ⟨n, hn⟩ : ∃ n, NURBS.alloc 1 3 0 2 = some n := ⟨_, rfl⟩
  exact ⟨n, hn, (this.2 n hn).2.2.2.2.1, (this.2 n hn).2.2.1⟩

end Zeo

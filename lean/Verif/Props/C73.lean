import Verif.Lemmas.NurbsDeriv
import Verif.Lemmas.OBBGeom

/-! # C73: evaluation of NURBS curves and surfaces -/

namespace Zeo
open Finset Spec NURBS

variable {n : NURBS} {sg : BSpline → ℝ → ℕ} {τ u v : ℝ}

/-- The points and weights that matter at the parameters `u` and `v`. -/
private theorem weights (hn : NurbsOK n) (hs : IsSegment sg) (hτ : 0 ≤ τ) (hw : ∀ i < n.n0, ∀ j < n.n1, τ < n.w i j)
    (hu : InDomain n.p0 n.n0 u) (hv : InDomain n.p1 n.n1 v) :
    let T := dsum n.n0 n.n1 (n.p0.basis u (sg n.p0 u) n.p0.order) (n.p1.basis v (sg n.p1 v) n.p1.order)
    τ < T n.w ∧ n.vec sg τ u v = some ⟨(T fun i j => n.w i j * (n.cp i j).x) / T n.w,
      (T fun i j => n.w i j * (n.cp i j).y) / T n.w, (T fun i j => n.w i j * (n.cp i j).z) / T n.w⟩ := by
  intro T
  have hd : τ < T n.w := den_pos hn hs hu hv hw
  refine ⟨hd, ?_⟩
  rw [eval_eq sg τ u v (hn.inside hs hu hv), if_neg]
  rintro (h | h)
  · exact absurd ((le_abs_self _).trans h) (not_le.2 hd)
  · exact absurd h (hτ.trans_lt hd).ne'

/-- Weights above the tolerance: every parameter in the domain has a point, in the convex hull of the control points whose
knots reach the parameter. -/
theorem C73_hull (hs : IsSegment sg) (hn : NurbsOK n) (hτ : 0 ≤ τ) (hw : ∀ i < n.n0, ∀ j < n.n1, τ < n.w i j)
    (hu : InDomain n.p0 n.n0 u) (hv : InDomain n.p1 n.n1 v) :
    ∃ p, n.vec sg τ u v = some p ∧
      InHull {q | ∃ i j, i < n.n0 ∧ j < n.n1 ∧ n.p0.kn i ≤ u ∧ u ≤ n.p0.kn (i + n.p0.order + 1) ∧
        n.p1.kn j ≤ v ∧ v ≤ n.p1.kn (j + n.p1.order + 1) ∧ q = n.cp i j} p := by
  obtain ⟨hd, he⟩ := weights hn hs hτ hw hu hv
  refine ⟨_, he, ?_⟩
  set A := n.p0.basis u (sg n.p0 u) n.p0.order with hA
  set B := n.p1.basis v (sg n.p1 v) n.p1.order with hB
  set D := dsum n.n0 n.n1 A B n.w
  have hD : 0 < D := hτ.trans_lt hd
  have key := inHull_finset (range n.n0 ×ˢ range n.n1) (fun k => A k.1 * B k.2 * n.w k.1 k.2 / D)
    (fun k => n.cp k.1 k.2)
    (S := {q | ∃ i j, i < n.n0 ∧ j < n.n1 ∧ n.p0.kn i ≤ u ∧ u ≤ n.p0.kn (i + n.p0.order + 1) ∧
        n.p1.kn j ≤ v ∧ v ≤ n.p1.kn (j + n.p1.order + 1) ∧ q = n.cp i j}) ?_ ?_ ?_
  · convert key using 2 <;>
    · rw [dsum_prod, sum_div]
      exact sum_congr rfl fun k _ => by ring
  · rintro ⟨i, j⟩ - hne
    have h0 : A i * B j ≠ 0 := by
      intro h; apply hne; show A i * B j * n.w i j / D = 0; rw [h]; simp
    obtain ⟨a1, a2, a3⟩ := hn.k0.support hs hu (left_ne_zero_of_mul h0)
    obtain ⟨b1, b2, b3⟩ := hn.k1.support hs hv (right_ne_zero_of_mul h0)
    exact ⟨i, j, a1, b1, a2, a3, b2, b3, rfl⟩
  · rintro ⟨i, j⟩ hk
    obtain ⟨a, b⟩ := mem_product.1 hk
    have := hw _ (mem_range.1 a) _ (mem_range.1 b)
    exact div_nonneg (mul_nonneg (mul_nonneg (hn.k0.nonneg hs hu _) (hn.k1.nonneg hs hv _)) (hτ.trans this.le)) hD.le
  · rw [← sum_div, ← dsum_prod]
    exact div_self hD.ne'

/-- The surface starts and ends in its corner control points, for knots that are repeated at the ends. -/
theorem C73_corner (hs : IsSegment sg) (hn : NurbsOK n) (c0 : Clamped n.p0 n.n0) (c1 : Clamped n.p1 n.n1)
    (hτ : 0 ≤ τ) (hw : ∀ i < n.n0, ∀ j < n.n1, τ < |n.w i j|) :
    n.vec sg τ (n.p0.kn n.p0.order) (n.p1.kn n.p1.order) = some (n.cp 0 0) ∧
    n.vec sg τ (n.p0.kn n.n0) (n.p1.kn n.p1.order) = some (n.cp (n.n0 - 1) 0) ∧
    n.vec sg τ (n.p0.kn n.p0.order) (n.p1.kn n.n1) = some (n.cp 0 (n.n1 - 1)) ∧
    n.vec sg τ (n.p0.kn n.n0) (n.p1.kn n.n1) = some (n.cp (n.n0 - 1) (n.n1 - 1)) := by
  have key : ∀ u v a b, InDomain n.p0 n.n0 u → InDomain n.p1 n.n1 v → a < n.n0 → b < n.n1 →
      (∀ i, n.p0.basis u (sg n.p0 u) n.p0.order i = if i = a then 1 else 0) →
      (∀ i, n.p1.basis v (sg n.p1 v) n.p1.order i = if i = b then 1 else 0) → n.vec sg τ u v = some (n.cp a b) := by
    intro u v a b hu hv ha hb hA hB
    rw [eval_eq sg τ u v (hn.inside hs hu hv)]
    simp only [dsum_single n.n0 n.n1 _ _ _ ha hb hA hB]
    have h := hw a ha b hb
    have h0 : n.w a b ≠ 0 := fun h0 => by rw [h0, abs_zero] at h; linarith
    rw [if_neg (by rintro (h' | h'); exacts [absurd h' (not_le.2 h), h0 h'])]
    simp only [mul_div_cancel_left₀ _ h0]
  have o0 := hn.k0.order_lt
  have o1 := hn.k1.order_lt
  exact ⟨key _ _ _ _ ⟨le_rfl, hn.k0.wide.le⟩ ⟨le_rfl, hn.k1.wide.le⟩ (by omega) (by omega) (c0.at_start hn.k0 hs) (c1.at_start hn.k1 hs),
    key _ _ _ _ ⟨hn.k0.wide.le, le_rfl⟩ ⟨le_rfl, hn.k1.wide.le⟩ (by omega) (by omega) (c0.at_stop hn.k0 hs) (c1.at_start hn.k1 hs),
    key _ _ _ _ ⟨le_rfl, hn.k0.wide.le⟩ ⟨hn.k1.wide.le, le_rfl⟩ (by omega) (by omega) (c0.at_start hn.k0 hs) (c1.at_stop hn.k1 hs),
    key _ _ _ _ ⟨hn.k0.wide.le, le_rfl⟩ ⟨hn.k1.wide.le, le_rfl⟩ (by omega) (by omega) (c0.at_stop hn.k0 hs) (c1.at_stop hn.k1 hs)⟩

/-! ## Transformations -/

private theorem vec_affine (hs : IsSegment sg) (hn : NurbsOK n) (hu : InDomain n.p0 n.n0 u) (hv : InDomain n.p1 n.n1 v)
    {g : Vec3 ℝ → Vec3 ℝ} {c : Vec3 ℝ} {m : Mat3 ℝ} (hg : ∀ p, g p = at3 c m.x m.y m.z p.x p.y p.z) :
    (n.mapCP g).vec sg τ u v = (n.vec sg τ u v).map g := by
  have hn' : NurbsOK (n.mapCP g) := ⟨hn.k0, hn.k1⟩
  set T := dsum n.n0 n.n1 (n.p0.basis u (sg n.p0 u) n.p0.order) (n.p1.basis v (sg n.p1 v) n.p1.order) with hT
  have e1 : n.vec sg τ u v = if |T n.w| ≤ τ ∨ T n.w = 0 then none else
      some ⟨(T fun i j => n.w i j * (n.cp i j).x) / T n.w, (T fun i j => n.w i j * (n.cp i j).y) / T n.w,
        (T fun i j => n.w i j * (n.cp i j).z) / T n.w⟩ := eval_eq sg τ u v (hn.inside hs hu hv)
  have e2 : (n.mapCP g).vec sg τ u v = if |T n.w| ≤ τ ∨ T n.w = 0 then none else
      some ⟨(T fun i j => n.w i j * (g (n.cp i j)).x) / T n.w, (T fun i j => n.w i j * (g (n.cp i j)).y) / T n.w,
        (T fun i j => n.w i j * (g (n.cp i j)).z) / T n.w⟩ := eval_eq sg τ u v (hn'.inside hs hu hv)
  rw [e1, e2]
  have hc : ∀ c0 c1 c2 c3 : ℝ, (T fun i j => n.w i j * (c0 + (n.cp i j).x * c1 + (n.cp i j).y * c2 + (n.cp i j).z * c3)) =
      c0 * T n.w + c1 * (T fun i j => n.w i j * (n.cp i j).x) + c2 * (T fun i j => n.w i j * (n.cp i j).y) +
      c3 * (T fun i j => n.w i j * (n.cp i j).z) := by
    intro c0 c1 c2 c3
    simp only [hT, ← dsum_mul, ← dsum_add]
    congr 1
    funext i j
    ring
  by_cases h : |T n.w| ≤ τ ∨ T n.w = 0
  · rw [if_pos h, if_pos h]; rfl
  · rw [if_neg h, if_neg h]
    have h0 : T n.w ≠ 0 := fun h' => h (Or.inr h')
    simp only [Option.map_some, hg, at3, hc, Option.some.injEq, Vec3.mk.injEq]
    generalize (T fun i j => n.w i j * (n.cp i j).x) = X at *
    generalize (T fun i j => n.w i j * (n.cp i j).y) = Y at *
    generalize (T fun i j => n.w i j * (n.cp i j).z) = Z at *
    generalize T n.w = D at *
    refine ⟨?_, ?_, ?_⟩ <;> · field_simp

private theorem copy_eq {src dest d : NURBS} (h : src.copy dest = some d) : d = src := by
  unfold NURBS.copy at h
  split_ifs at h with h1 h2
  push Not at h2
  obtain ⟨a, b⟩ := h2
  cases h
  rw [← a, ← b]

/-- A surface is transformed point by point. -/
theorem C73_xform (hs : IsSegment sg) (hn : NurbsOK n) {f : Frame3 ℝ} {dest d : NURBS} (h : n.xform f dest = some d)
    (hu : InDomain n.p0 n.n0 u) (hv : InDomain n.p1 n.n1 v) : d.vec sg τ u v = (n.vec sg τ u v).map f.xform := by
  unfold NURBS.xform at h
  obtain ⟨e, he, rfl⟩ := Option.map_eq_some_iff.1 h
  rw [copy_eq he]
  exact vec_affine hs hn hu hv (c := f.pos) (m := f.att) fun p => by
    simp only [Frame3.xform, Mat3.mulVec, Vec3.add, at3]; ext <;> simp <;> ring
/-- So it is by the inverse transformation. -/
theorem C73_xformInv (hs : IsSegment sg) (hn : NurbsOK n) {f : Frame3 ℝ} {dest d : NURBS} (h : n.xformInv f dest = some d)
    (hu : InDomain n.p0 n.n0 u) (hv : InDomain n.p1 n.n1 v) : d.vec sg τ u v = (n.vec sg τ u v).map f.xformInv := by
  unfold NURBS.xformInv at h
  obtain ⟨e, he, rfl⟩ := Option.map_eq_some_iff.1 h
  rw [copy_eq he]
  exact vec_affine hs hn hu hv (c := f.xformInv .zero) (m := ⟨⟨f.att.x.x, f.att.y.x, f.att.z.x⟩,
      ⟨f.att.x.y, f.att.y.y, f.att.z.y⟩, ⟨f.att.x.z, f.att.y.z, f.att.z.z⟩⟩) fun p => by
    simp only [Frame3.xformInv, Mat3.mulTVec, Vec3.sub, Vec3.zero, at3, Vec3.inner]; ext <;> simp <;> ring
/-- So it is by a mirror. -/
theorem C73_mirror (hs : IsSegment sg) (hn : NurbsOK n) {a : Fin 3} {dest d : NURBS} (h : n.mirror dest a = some d)
    (hu : InDomain n.p0 n.n0 u) (hv : InDomain n.p1 n.n1 v) : d.vec sg τ u v = (n.vec sg τ u v).map fun p => p.flip a := by
  unfold NURBS.mirror at h
  obtain ⟨e, he, rfl⟩ := Option.map_eq_some_iff.1 h
  rw [copy_eq he]
  refine vec_affine hs hn hu hv (c := .zero) (m := ⟨(Vec3.ex : Vec3 ℝ).flip a, (Vec3.ey : Vec3 ℝ).flip a, (Vec3.ez : Vec3 ℝ).flip a⟩) fun p => ?_
  fin_cases a <;> simp [Vec3.flip, Vec3.setE, Vec3.e, Vec3.ex, Vec3.ey, Vec3.ez, Vec3.zero, at3]

/-- Copying succeeds exactly if the sizes agree, and gives the same surface. -/
theorem C73_copy (src dest : NURBS) :
    (src.copy dest = some src ∨ src.copy dest = none) ∧
    (src.copy dest = none ↔ src.p0.knot.length ≠ dest.p0.knot.length ∨ src.p1.knot.length ≠ dest.p1.knot.length ∨
      src.n0 ≠ dest.n0 ∨ src.n1 ≠ dest.n1) := by
  constructor
  · cases h : src.copy dest with
    | none => right; rfl
    | some d => left; rw [copy_eq h]
  · unfold NURBS.copy
    split_ifs with h1 h2
    · simp only [true_iff]; tauto
    · simp only [true_iff]; tauto
    · simp only [reduceCtorEq, false_iff]; tauto

/-- Allocation succeeds exactly for orders less than the sizes, and gives sound knots, repeated at the ends. -/
theorem C73_alloc (s1 s2 o1 o2 : ℕ) :
    (alloc s1 s2 o1 o2 = none ↔ s1 ≤ o1 ∨ s2 ≤ o2) ∧
    ∀ n, alloc s1 s2 o1 o2 = some n → n.n0 = s1 ∧ n.n1 = s2 ∧ n.p0.order = o1 ∧ n.p1.order = o2 ∧ NurbsOK n ∧
      Clamped n.p0 n.n0 ∧ Clamped n.p1 n.n1 ∧ ∀ i j, n.w i j = 1 := by
  have hk : ∀ s o j : ℕ, j < s + o + 1 → (BSpline.init s o).kn j = ((min j s - o : ℕ) : ℝ) := by
    intro s o j hj
    unfold BSpline.kn BSpline.init
    rw [List.getD_eq_getElem _ _ (by simpa using hj)]
    simp
  have key : ∀ s o : ℕ, o < s → KnotsOK (BSpline.init s o) s ∧ Clamped (BSpline.init s o) s := by
    intro s o h
    refine ⟨⟨by simp [BSpline.init], ?_, ?_⟩, ⟨?_, ?_, ?_, ?_⟩⟩
    · simp only [BSpline.init]
      rw [List.pairwise_map]
      refine List.Pairwise.imp ?_ List.pairwise_lt_range
      intro a b hab
      exact_mod_cast (by omega : min a s - o ≤ min b s - o)
    · rw [show (BSpline.init s o).order = o from rfl, hk s o o (by omega), hk s o s (by omega)]
      exact_mod_cast (by omega : min o s - o < min s s - o)
    · intro i hi
      rw [show (BSpline.init s o).order = o from rfl] at hi ⊢
      rw [hk s o o (by omega), hk s o i (by omega)]
      exact_mod_cast (by omega : min i s - o = min o s - o)
    · rw [show (BSpline.init s o).order = o from rfl, hk s o o (by omega), hk s o (o + 1) (by omega)]
      exact_mod_cast (by omega : min o s - o < min (o + 1) s - o)
    · intro i h1 h2
      rw [show (BSpline.init s o).order = o from rfl] at h2
      rw [hk s o i (by omega), hk s o s (by omega)]
      exact_mod_cast (by omega : min i s - o = min s s - o)
    · rw [hk s o s (by omega), hk s o (s - 1) (by omega)]
      exact_mod_cast (by omega : min (s - 1) s - o < min s s - o)
  unfold alloc
  split_ifs with h
  · simp [h]
  · push Not at h
    refine ⟨by simp; omega, ?_⟩
    rintro n h'
    cases h'
    exact ⟨rfl, rfl, rfl, rfl, ⟨(key _ _ h.1).1, (key _ _ h.2).1⟩, (key _ _ h.1).2, (key _ _ h.2).2, fun _ _ => rfl⟩

/-- A clone is the same surface. -/
theorem C73_clone (hn : NurbsOK n) : n.clone = some n := by
  have o0 := hn.k0.order_lt
  have o1 := hn.k1.order_lt
  unfold NURBS.clone alloc
  rw [if_neg (by omega)]
  show n.copy _ = some n
  have := C73_copy n ⟨.init n.n0 n.p0.order, .init n.n1 n.p1.order, n.n0, n.n1, fun _ _ => .zero, fun _ _ => 1⟩
  rcases this.1 with h | h
  · exact h
  · have := this.2.1 h
    simp [BSpline.init, hn.k0.len, hn.k1.len] at this

/-! ## Tangents -/

private theorem normalize_unitV {v : Vec3 ℝ} (h : ¬ v.isTol τ) : (v.normalize τ v).2 = unitV v := by
  unfold Vec3.normalize
  rw [if_neg h]
  simp only [Vec3.normalizeNC, Vec3.mul, unitV, Vec3.norm, Vec3.sqrNorm, Vec3.inner]
  ext <;> · simp only [pow_two]; ring

private theorem unitV_scale {k : ℝ} (hk : 0 < k) (v : Vec3 ℝ) : unitV ⟨k * v.x, k * v.y, k * v.z⟩ = unitV v := by
  unfold unitV
  have : Real.sqrt ((k * v.x) ^ 2 + (k * v.y) ^ 2 + (k * v.z) ^ 2) = k * Real.sqrt (v.x ^ 2 + v.y ^ 2 + v.z ^ 2) := by
    rw [show (k * v.x) ^ 2 + (k * v.y) ^ 2 + (k * v.z) ^ 2 = k ^ 2 * (v.x ^ 2 + v.y ^ 2 + v.z ^ 2) by ring,
      Real.sqrt_mul (by positivity), Real.sqrt_sq hk.le]
  simp only [this]
  ext <;> exact mul_div_mul_left _ _ hk.ne'

private theorem isTol_near (v : Vec3 ℝ) : v.isTol τ ↔ Near τ v .zero := by
  simp [Vec3.isTol, zIsTol, Near, Vec3.zero]

/-- `zNURBS3DVecTSpace` finds the point of `zNURBS3DVec`. -/
theorem NURBS.tspace_vec (hn : NurbsOK n) (hs : IsSegment sg) (hτ : 0 ≤ τ) (hu : InDomain n.p0 n.n0 u)
    (hv : InDomain n.p1 n.n1 v) {t : TSpace} (ht : n.vecTSpace sg τ u v = some t) : n.vec sg τ u v = some t.p := by
  have hi := hn.inside hs hu hv
  rw [eval_eq sg τ u v hi]
  unfold vecTSpace at ht
  rw [tSums_eq hi u v] at ht
  dsimp only at ht
  by_cases h1 : zIsTol (dsum n.n0 n.n1 (n.p0.basis u (sg n.p0 u) n.p0.order) (n.p1.basis v (sg n.p1 v) n.p1.order) n.w) τ
  · rw [if_pos h1] at ht; cases ht
  rw [if_neg h1] at ht
  obtain rfl := Option.some.inj ht
  unfold zIsTol at h1
  set D := dsum n.n0 n.n1 (n.p0.basis u (sg n.p0 u) n.p0.order) (n.p1.basis v (sg n.p1 v) n.p1.order) n.w
  have h0 : D ≠ 0 := fun h => h1 (by rw [h, abs_zero]; exact hτ)
  rw [if_neg (by tauto)]
  simp only [Vec3.div, if_neg h0, Vec3.mul, Option.some.injEq, Vec3.mk.injEq]
  refine ⟨?_, ?_, ?_⟩ <;> ring

theorem NURBS.tspace_of_sums {s : TSum} (hs : n.tSums u v (sg n.p0 u) (sg n.p1 v) = s) (h : ¬ zIsTol s.den τ)
    {p tu tv : Vec3 ℝ} (hp : (s.p.div s.den s.p).2 = p) (hu : s.tu.cat (-s.dubv) p = tu) (hv : s.tv.cat (-s.budv) p = tv) :
    n.vecTSpace sg τ u v = some ⟨p, if (tu.outer tv).isTol τ then .zero else ((tu.outer tv).normalize τ (tu.outer tv)).2,
      unitOr τ tu, unitOr τ tv⟩ := by
  unfold vecTSpace
  rw [hs]
  subst hp; subst hu; subst hv
  exact if_neg h

/-- The point of the surface with its tangents and its normal, off the knots: the point is the one of `zNURBS3DVec`, the
tangents are the directions of the derivatives by the two parameters, and the normal is the direction of their cross
product. A vector `k` times the derivative that vanishes up to the tolerance is not normalized; such a normal is
replaced by zero. `k` is the sum of the weights at the point. -/
theorem C73_tangent (hs : IsSegment sg) (hn : NurbsOK n) (hτ : 0 ≤ τ) (hw : ∀ i < n.n0, ∀ j < n.n1, τ < n.w i j)
    (hu : InDomain n.p0 n.n0 u) (hv : InDomain n.p1 n.n1 v) (hku : ∀ k ∈ n.p0.knot, k ≠ u) (hkv : ∀ k ∈ n.p1.knot, k ≠ v) :
    ∃ t du dv k, n.vecTSpace sg τ u v = some t ∧ n.vec sg τ u v = some t.p ∧ τ < k ∧
      IsVelocity (fun u' => n.vec sg τ u' v) du u ∧ IsVelocity (fun v' => n.vec sg τ u v') dv v ∧
      (¬ Near τ ⟨k * du.x, k * du.y, k * du.z⟩ .zero → t.t1 = unitV du) ∧
      (Near τ ⟨k * du.x, k * du.y, k * du.z⟩ .zero → t.t1 = ⟨k * du.x, k * du.y, k * du.z⟩) ∧
      (¬ Near τ ⟨k * dv.x, k * dv.y, k * dv.z⟩ .zero → t.t2 = unitV dv) ∧
      (Near τ ⟨k * dv.x, k * dv.y, k * dv.z⟩ .zero → t.t2 = ⟨k * dv.x, k * dv.y, k * dv.z⟩) ∧
      (¬ Near τ (crossP ⟨k * du.x, k * du.y, k * du.z⟩ ⟨k * dv.x, k * dv.y, k * dv.z⟩) .zero → t.n = unitV (crossP du dv)) ∧
      (Near τ (crossP ⟨k * du.x, k * du.y, k * du.z⟩ ⟨k * dv.x, k * dv.y, k * dv.z⟩) .zero → t.n = .zero) := by
  have hi := hn.inside hs hu hv
  obtain ⟨hd, he⟩ := weights hn hs hτ hw hu hv
  set A := n.p0.basis u (sg n.p0 u) n.p0.order with hA
  set B := n.p1.basis v (sg n.p1 v) n.p1.order with hB
  set A' := n.p0.basisDiff u (sg n.p0 u) n.p0.order with hA'
  set B' := n.p1.basisDiff v (sg n.p1 v) n.p1.order with hB'
  set D := dsum n.n0 n.n1 A B n.w with hD
  have hD0 : 0 < D := hτ.trans_lt hd
  set X : (Vec3 ℝ → ℝ) → ℕ → ℕ → ℝ := fun c i j => n.w i j * c (n.cp i j) with hX
  -- the derivatives
  set gu : (Vec3 ℝ → ℝ) → ℝ := fun c =>
    (dsum n.n0 n.n1 A' B (X c) * D - dsum n.n0 n.n1 A B (X c) * dsum n.n0 n.n1 A' B n.w) / D ^ 2 with hgu
  set gv : (Vec3 ℝ → ℝ) → ℝ := fun c =>
    (dsum n.n0 n.n1 A B' (X c) * D - dsum n.n0 n.n1 A B (X c) * dsum n.n0 n.n1 A B' n.w) / D ^ 2 with hgv
  have du1 : ∀ c, HasDerivAt (fun u' => dsum n.n0 n.n1 (n.p0.basis u' (sg n.p0 u) n.p0.order) B (X c) /
      dsum n.n0 n.n1 (n.p0.basis u' (sg n.p0 u) n.p0.order) B n.w) (gu c) u := fun c =>
    (dsum_deriv_left n.n0 n.n1 n.p0 (sg n.p0 u) B (X c) u).div (dsum_deriv_left n.n0 n.n1 n.p0 (sg n.p0 u) B n.w u) hD0.ne'
  have dv1 : ∀ c, HasDerivAt (fun v' => dsum n.n0 n.n1 A (n.p1.basis v' (sg n.p1 v) n.p1.order) (X c) /
      dsum n.n0 n.n1 A (n.p1.basis v' (sg n.p1 v) n.p1.order) n.w) (gv c) v := fun c =>
    (dsum_deriv_right n.n0 n.n1 n.p1 (sg n.p1 v) A (X c) v).div (dsum_deriv_right n.n0 n.n1 n.p1 (sg n.p1 v) A n.w v) hD0.ne'
  have nu : ∀ᶠ u' in nhds u, n.vec sg τ u' v = some
      ⟨dsum n.n0 n.n1 (n.p0.basis u' (sg n.p0 u) n.p0.order) B (X Vec3.x) / dsum n.n0 n.n1 (n.p0.basis u' (sg n.p0 u) n.p0.order) B n.w,
       dsum n.n0 n.n1 (n.p0.basis u' (sg n.p0 u) n.p0.order) B (X Vec3.y) / dsum n.n0 n.n1 (n.p0.basis u' (sg n.p0 u) n.p0.order) B n.w,
       dsum n.n0 n.n1 (n.p0.basis u' (sg n.p0 u) n.p0.order) B (X Vec3.z) / dsum n.n0 n.n1 (n.p0.basis u' (sg n.p0 u) n.p0.order) B n.w⟩ := by
    filter_upwards [hn.k0.near hs hu hku] with u' ⟨h1, h2⟩
    have := (weights hn hs hτ hw h1 hv).2
    rw [h2] at this
    exact this
  have nv : ∀ᶠ v' in nhds v, n.vec sg τ u v' = some
      ⟨dsum n.n0 n.n1 A (n.p1.basis v' (sg n.p1 v) n.p1.order) (X Vec3.x) / dsum n.n0 n.n1 A (n.p1.basis v' (sg n.p1 v) n.p1.order) n.w,
       dsum n.n0 n.n1 A (n.p1.basis v' (sg n.p1 v) n.p1.order) (X Vec3.y) / dsum n.n0 n.n1 A (n.p1.basis v' (sg n.p1 v) n.p1.order) n.w,
       dsum n.n0 n.n1 A (n.p1.basis v' (sg n.p1 v) n.p1.order) (X Vec3.z) / dsum n.n0 n.n1 A (n.p1.basis v' (sg n.p1 v) n.p1.order) n.w⟩ := by
    filter_upwards [hn.k1.near hs hv hkv] with v' ⟨h1, h2⟩
    have := (weights hn hs hτ hw hu h1).2
    rw [h2] at this
    exact this
  set du : Vec3 ℝ := ⟨gu Vec3.x, gu Vec3.y, gu Vec3.z⟩ with hdu
  set dv : Vec3 ℝ := ⟨gv Vec3.x, gv Vec3.y, gv Vec3.z⟩ with hdv
  set p : Vec3 ℝ := ⟨dsum n.n0 n.n1 A B (X Vec3.x) / D, dsum n.n0 n.n1 A B (X Vec3.y) / D, dsum n.n0 n.n1 A B (X Vec3.z) / D⟩ with hp
  set tu : Vec3 ℝ := ⟨D * du.x, D * du.y, D * du.z⟩ with htu
  set tv : Vec3 ℝ := ⟨D * dv.x, D * dv.y, D * dv.z⟩ with htv
  have ht : n.vecTSpace sg τ u v = some ⟨p, if (tu.outer tv).isTol τ then .zero else ((tu.outer tv).normalize τ (tu.outer tv)).2,
      unitOr τ tu, unitOr τ tv⟩ := by
    have hs1 := tSums_eq hi u v
    have hz : ¬ zIsTol D τ := fun h => absurd ((le_abs_self _).trans h) (not_le.2 hd)
    have e1 : (Vec3.div (⟨dsum n.n0 n.n1 A B (X Vec3.x), dsum n.n0 n.n1 A B (X Vec3.y), dsum n.n0 n.n1 A B (X Vec3.z)⟩ : Vec3 ℝ) D
        ⟨dsum n.n0 n.n1 A B (X Vec3.x), dsum n.n0 n.n1 A B (X Vec3.y), dsum n.n0 n.n1 A B (X Vec3.z)⟩).2 = p := by
      rw [Vec3.div, if_neg hD0.ne', hp]
      simp only [Vec3.mul, Vec3.mk.injEq]
      refine ⟨?_, ?_, ?_⟩ <;> ring
    have e2 : (⟨dsum n.n0 n.n1 A' B (X Vec3.x), dsum n.n0 n.n1 A' B (X Vec3.y), dsum n.n0 n.n1 A' B (X Vec3.z)⟩ : Vec3 ℝ).cat
        (-dsum n.n0 n.n1 A' B n.w) p = tu := by
      rw [htu, hp, hdu]
      simp only [Vec3.cat, hgu, Vec3.mk.injEq]
      refine ⟨?_, ?_, ?_⟩ <;> · field_simp; try ring
    have e3 : (⟨dsum n.n0 n.n1 A B' (X Vec3.x), dsum n.n0 n.n1 A B' (X Vec3.y), dsum n.n0 n.n1 A B' (X Vec3.z)⟩ : Vec3 ℝ).cat
        (-dsum n.n0 n.n1 A B' n.w) p = tv := by
      rw [htv, hp, hdv]
      simp only [Vec3.cat, hgv, Vec3.mk.injEq]
      refine ⟨?_, ?_, ?_⟩ <;> · field_simp; try ring
    exact tspace_of_sums hs1 hz e1 e2 e3
  refine ⟨_, du, dv, D, ht, he, hd, ⟨?_, ?_, ?_, ?_⟩, ⟨?_, ?_, ?_, ?_⟩, ?_, ?_, ?_, ?_, ?_, ?_⟩
  · filter_upwards [nu] with u' h; simp [h]
  · refine (du1 Vec3.x).congr_of_eventuallyEq ?_
    filter_upwards [nu] with u' h; simp [h]
  · refine (du1 Vec3.y).congr_of_eventuallyEq ?_
    filter_upwards [nu] with u' h; simp [h]
  · refine (du1 Vec3.z).congr_of_eventuallyEq ?_
    filter_upwards [nu] with u' h; simp [h]
  · filter_upwards [nv] with u' h; simp [h]
  · refine (dv1 Vec3.x).congr_of_eventuallyEq ?_
    filter_upwards [nv] with u' h; simp [h]
  · refine (dv1 Vec3.y).congr_of_eventuallyEq ?_
    filter_upwards [nv] with u' h; simp [h]
  · refine (dv1 Vec3.z).congr_of_eventuallyEq ?_
    filter_upwards [nv] with u' h; simp [h]
  · intro h
    rw [← isTol_near] at h
    show unitOr τ tu = _
    rw [unitOr, if_neg h, normalize_unitV h, unitV_scale hD0]
  · intro h
    rw [← isTol_near] at h
    show unitOr τ tu = _
    rw [unitOr, if_pos h]
  · intro h
    rw [← isTol_near] at h
    show unitOr τ tv = _
    rw [unitOr, if_neg h, normalize_unitV h, unitV_scale hD0]
  · intro h
    rw [← isTol_near] at h
    show unitOr τ tv = _
    rw [unitOr, if_pos h]
  · intro h
    rw [← isTol_near] at h
    show (if (tu.outer tv).isTol τ then Vec3.zero else ((tu.outer tv).normalize τ (tu.outer tv)).2) = _
    have h' : ¬ (tu.outer tv).isTol τ := h
    rw [if_neg h', normalize_unitV h', ← unitV_scale (mul_pos hD0 hD0) (crossP du dv)]
    congr 1
    simp only [Vec3.outer, htu, htv, crossP, Vec3.mk.injEq]
    refine ⟨?_, ?_, ?_⟩ <;> ring
  · intro h
    rw [← isTol_near] at h
    show (if (tu.outer tv).isTol τ then Vec3.zero else ((tu.outer tv).normalize τ (tu.outer tv)).2) = _
    exact if_pos h

end Zeo

import Verif.Model.PH
import Verif.Props.C20
import Verif.Props.C26
import Verif.Spec.Hull

/-! # C55: vertices, bounding box, inside test and nearest point of a polyhedron -/

namespace Zeo
open Spec

/-- Height of `p` above the plane of the face, counted along the face's own orientation and scaled by
twice its area. -/
noncomputable def Spec.faceHeight (ph : PH ℝ) (f : Face ℝ) (p : Vec3 ℝ) : ℝ :=
  (p.sub (ph.vert f.i0)).inner
    (((ph.vert f.i1).sub (ph.vert f.i0)).outer ((ph.vert f.i2).sub (ph.vert f.i0)))
/-- The points behind the planes of all faces: the solid of a convex polyhedron. -/
def Spec.behindAll (ph : PH ℝ) : Set (Vec3 ℝ) := {x | ∀ f ∈ ph.face, Spec.faceHeight ph f x ≤ 0}
/-- A face as a set of points. -/
def Spec.faceSet (ph : PH ℝ) (f : Face ℝ) : Set (Vec3 ℝ) :=
  Spec.triangle (ph.vert f.i0) (ph.vert f.i1) (ph.vert f.i2)
/-- The faces are as `zPH3DCreate...`, `zPH3DClone` etc. leave them and none has an area below the
tolerance. -/
def Spec.ProperFaces (τ : ℝ) (ph : PH ℝ) : Prop :=
  ∀ f ∈ ph.face, f = PH.mkFace τ ph.vert f.i0 f.i1 f.i2 ∧
    ¬ (Tri3.outerProd (ph.vert f.i0) (ph.vert f.i1) (ph.vert f.i2)).isTol τ
/-- The mesh covers the boundary of the solid behind its faces. -/
def Spec.Covers (ph : PH ℝ) : Prop :=
  ∀ x ∈ Spec.behindAll ph, ∀ f ∈ ph.face, Spec.faceHeight ph f x = 0 →
    ∃ g ∈ ph.face, (∀ y, 0 < Spec.faceHeight ph f y → 0 < Spec.faceHeight ph g y) ∧ x ∈ Spec.faceSet ph g

/-! ### The nearest vertex -/

private theorem contig_fold (ph : PH ℝ) (p : Vec3 ℝ) (l : List ℕ) : ∀ s : ℕ × ℝ, s.2 = ed (ph.vert s.1) p →
    let r := l.foldl (ph.contigStep p) s
    (r.1 = s.1 ∨ r.1 ∈ l) ∧ r.2 = ed (ph.vert r.1) p ∧ r.2 ≤ s.2 ∧ ∀ i ∈ l, r.2 ≤ ed (ph.vert i) p := by
  induction l with
  | nil => intro s hs; simpa using hs
  | cons i l ih =>
    intro s hs
    simp only [List.foldl_cons]
    have hstep : ph.contigStep p s i = if ed (ph.vert i) p < s.2 then (i, ed (ph.vert i) p) else s := by
      rw [PH.contigStep, dist_eq_ed]
    rw [hstep]
    by_cases h : ed (ph.vert i) p < s.2
    · rw [if_pos h]
      obtain ⟨h1, h2, h3, h4⟩ := ih (i, ed (ph.vert i) p) rfl
      refine ⟨Or.inr ?_, h2, h3.trans h.le, fun j hj => ?_⟩
      · rcases h1 with h1 | h1
        · rw [h1]; exact List.mem_cons_self
        · exact List.mem_cons_of_mem _ h1
      · rcases List.mem_cons.1 hj with rfl | hj
        · exact h3
        · exact h4 j hj
    · rw [if_neg h]
      obtain ⟨h1, h2, h3, h4⟩ := ih s hs
      refine ⟨h1.imp id (List.mem_cons_of_mem _), h2, h3, fun j hj => ?_⟩
      rcases List.mem_cons.1 hj with rfl | hj
      · exact h3.trans (not_lt.1 h)
      · exact h4 j hj

private theorem ed_comm' (p q : Vec3 ℝ) : ed p q = ed q p := by
  unfold Spec.ed; congr 1; simp only [Spec.sqd]; ring

/-- `zPH3DContigVert` returns a vertex of the polyhedron that no other vertex is nearer than, with its
distance; NULL is returned exactly when there is no vertex. -/
theorem C55_contigVert (ph : PH ℝ) (p : Vec3 ℝ) :
    (ph.contigVert p = none ↔ ph.nv = 0) ∧
    ∀ i d, ph.contigVert p = some (i, d) →
      i < ph.nv ∧ d = ed p (ph.vert i) ∧ ∀ j < ph.nv, d ≤ ed p (ph.vert j) := by
  unfold PH.contigVert
  constructor
  · split_ifs with h <;> simp [h]
  · intro i d h
    split_ifs at h with h0
    have h := Option.some.inj h
    have hs : (0, p.dist (ph.vert 0)).2 = ed (ph.vert (0, p.dist (ph.vert 0)).1) p := by
      rw [dist_eq_ed, ed_comm']
    obtain ⟨h1, h2, h3, h4⟩ := contig_fold ph p (List.range' 1 (ph.nv - 1)) _ hs
    rw [h] at h1 h2 h3 h4
    dsimp only at h1 h2 h3 h4
    refine ⟨?_, by rw [h2, ed_comm'], fun j hj => ?_⟩
    · rcases h1 with h1 | h1
      · omega
      · rw [List.mem_range'_1] at h1; omega
    · rw [ed_comm']
      rcases Nat.eq_zero_or_pos j with rfl | hj0
      · rw [dist_eq_ed, ed_comm'] at h3; exact h3
      · exact h4 j (by rw [List.mem_range'_1]; omega)

/-! ### The bounding box -/

private theorem aabb_fold (vert : ℕ → Vec3 ℝ) (l : List ℕ) : ∀ b : AABox3 ℝ, Spec.Proper b →
    let r := l.foldl (fun b i => b.enlarge (vert i)) b
    Spec.aabox b ⊆ Spec.aabox r ∧ (∀ i ∈ l, vert i ∈ Spec.aabox r) ∧
    ∀ c : AABox3 ℝ, Spec.aabox b ⊆ Spec.aabox c → (∀ i ∈ l, vert i ∈ Spec.aabox c) → Spec.aabox r ⊆ Spec.aabox c := by
  induction l with
  | nil => intro b _; simp
  | cons i l ih =>
    intro b hb
    have hp : Spec.Proper (⟨vert i, vert i⟩ : AABox3 ℝ) := ⟨le_rfl, le_rfl, le_rfl⟩
    obtain ⟨m1, m2, m3⟩ := C26_merge b ⟨vert i, vert i⟩ hb hp
    rw [← C26_enlarge b (vert i) hb] at m1 m2 m3
    have hv : vert i ∈ Spec.aabox (⟨vert i, vert i⟩ : AABox3 ℝ) := ⟨⟨le_rfl, le_rfl⟩, ⟨le_rfl, le_rfl⟩, le_rfl, le_rfl⟩
    have hpe : Spec.Proper (b.enlarge (vert i)) := by
      obtain ⟨a1, a2, a3⟩ := m2 hv
      exact ⟨a1.1.trans a1.2, a2.1.trans a2.2, a3.1.trans a3.2⟩
    obtain ⟨h1, h2, h3⟩ := ih _ hpe
    simp only [List.foldl_cons]
    refine ⟨m1.trans h1, fun j hj => ?_, fun c hc hl => h3 c (m3 c hc ?_) fun j hj => hl j (List.mem_cons_of_mem _ hj)⟩
    · rcases List.mem_cons.1 hj with rfl | hj
      · exact h1 (m2 hv)
      · exact h2 j hj
    · rintro q ⟨⟨q1, q2⟩, ⟨q3, q4⟩, q5, q6⟩
      have : q = vert i := by ext <;> exact le_antisymm (by assumption) (by assumption)
      rw [this]
      exact hl i List.mem_cons_self

/-- `zPH3DAABB` delivers the smallest axis-aligned box that contains every vertex and the origin. -/
theorem C55_aabb (ph : PH ℝ) :
    (∀ i < ph.nv, ph.vert i ∈ Spec.aabox ph.aabb) ∧ .zero ∈ Spec.aabox ph.aabb ∧
    ∀ c : AABox3 ℝ, .zero ∈ Spec.aabox c → (∀ i < ph.nv, ph.vert i ∈ Spec.aabox c) →
      Spec.aabox ph.aabb ⊆ Spec.aabox c := by
  have hp : Spec.Proper (AABox3.init : AABox3 ℝ) := ⟨le_rfl, le_rfl, le_rfl⟩
  have h0 : (Vec3.zero : Vec3 ℝ) ∈ Spec.aabox (AABox3.init : AABox3 ℝ) :=
    ⟨⟨le_rfl, le_rfl⟩, ⟨le_rfl, le_rfl⟩, le_rfl, le_rfl⟩
  obtain ⟨h1, h2, h3⟩ := aabb_fold ph.vert (List.range ph.nv) .init hp
  refine ⟨fun i hi => h2 i (List.mem_range.2 hi), h1 h0, fun c hc hv => h3 c ?_ fun i hi => hv i (List.mem_range.1 hi)⟩
  rintro q ⟨⟨q1, q2⟩, ⟨q3, q4⟩, q5, q6⟩
  have : q = Vec3.zero := by
    ext
    · exact le_antisymm q2 q1
    · exact le_antisymm q4 q3
    · exact le_antisymm q6 q5
  rw [this]; exact hc

/-- It is not the smallest box around the polyhedron: when every vertex lies beyond a plane `x = m`,
`m > 0`, the box still reaches to the origin, so a smaller box contains all vertices. -/
theorem C55_aabb_loose (ph : PH ℝ) (m : ℝ) (hm : 0 < m) (hv : ∀ i < ph.nv, m ≤ (ph.vert i).x) (hn : 0 < ph.nv) :
    ∃ c : AABox3 ℝ, (∀ i < ph.nv, ph.vert i ∈ Spec.aabox c) ∧ Spec.aabox c ⊆ Spec.aabox ph.aabb ∧
      .zero ∈ Spec.aabox ph.aabb ∧ .zero ∉ Spec.aabox c := by
  obtain ⟨h1, h2, -⟩ := C55_aabb ph
  refine ⟨⟨⟨m, ph.aabb.min.y, ph.aabb.min.z⟩, ph.aabb.max⟩, fun i hi => ?_, ?_, h2, ?_⟩
  · obtain ⟨a, b, c⟩ := h1 i hi
    exact ⟨⟨hv i hi, a.2⟩, b, c⟩
  · rintro q ⟨a, b, c⟩
    exact ⟨⟨h2.1.1.trans (hm.le.trans a.1), a.2⟩, b, c⟩
  · rintro ⟨a, -⟩
    exact absurd a.1 (not_le.2 hm)

/-! ### The inside test -/

private theorem height_dist {τ : ℝ} (hτ : 0 ≤ τ) {ph : PH ℝ} {f : Face ℝ}
    (hf : f = PH.mkFace τ ph.vert f.i0 f.i1 f.i2)
    (h : ¬ (Tri3.outerProd (ph.vert f.i0) (ph.vert f.i1) (ph.vert f.i2)).isTol τ) :
    ∃ u : Vec3 ℝ, ∃ N : ℝ, f.norm = u ∧ u.sqrNorm = 1 ∧ 0 < N ∧
      Tri3.outerProd (ph.vert f.i0) (ph.vert f.i1) (ph.vert f.i2) = u.mul N ∧
      (∀ p, (ph.tri f).distFromPointToPlane p = (p.sub (ph.vert f.i0)).inner u) ∧
      (∀ p, Spec.faceHeight ph f p = N * (p.sub (ph.vert f.i0)).inner u) := by
  obtain ⟨hu, hnn, hN⟩ := normalize_unit hτ (old := Tri3.outerProd (ph.vert f.i0) (ph.vert f.i1) (ph.vert f.i2)) h
  have hnorm : f.norm = ((Tri3.outerProd (ph.vert f.i0) (ph.vert f.i1) (ph.vert f.i2)).normalize τ
      (Tri3.outerProd (ph.vert f.i0) (ph.vert f.i1) (ph.vert f.i2))).2 := by
    rw [hf]; simp only [PH.mkFace, Tri3.create, if_neg h]
  refine ⟨_, _, hnorm, hu, hN, hnn, fun p => ?_, fun p => ?_⟩
  · simp only [PH.tri, hnorm]
    generalize ((Tri3.outerProd (ph.vert f.i0) (ph.vert f.i1) (ph.vert f.i2)).normalize τ
      (Tri3.outerProd (ph.vert f.i0) (ph.vert f.i1) (ph.vert f.i2))).2 = u at *
    obtain ⟨p1, p2⟩ := tri_plane hnn hN
    have e : (⟨ph.vert f.i0, ph.vert f.i1, ph.vert f.i2, u⟩ : Tri3 ℝ).distFromPointToPlane p =
        p.inner u - ((ph.vert f.i0).inner u + (ph.vert f.i1).inner u + (ph.vert f.i2).inner u) / 3 := by
      simp only [Tri3.distFromPointToPlane, zeo]; ring
    rw [e, p1, p2]
    simp only [zeo]; ring
  · have ho : ((ph.vert f.i1).sub (ph.vert f.i0)).outer ((ph.vert f.i2).sub (ph.vert f.i0)) =
        Tri3.outerProd (ph.vert f.i0) (ph.vert f.i1) (ph.vert f.i2) := by
      ext <;> simp only [Tri3.outerProd, zeo] <;> ring
    rw [Spec.faceHeight, ho]
    conv_lhs => rw [hnn]
    simp only [zeo]; ring

/-- `zPH3DPointIsInside`: with margin zero exactly the points strictly behind every face are accepted; a
positive margin accepts every point nearer than the margin to a point behind all faces, and every
accepted point is nearer than the margin to the half-space behind each single face. -/
theorem C55_pointIsInside (τ : ℝ) (hτ : 0 ≤ τ) (ph : PH ℝ) (hp : Spec.ProperFaces τ ph) (p : Vec3 ℝ) :
    (ph.pointIsInside p 0 ↔ ∀ f ∈ ph.face, Spec.faceHeight ph f p < 0) ∧
    (∀ m x, x ∈ Spec.behindAll ph → ed p x < m → ph.pointIsInside p m) ∧
    (∀ m, 0 < m → ph.pointIsInside p m → ∀ f ∈ ph.face, ∃ x, Spec.faceHeight ph f x ≤ 0 ∧ ed p x < m) := by
  refine ⟨?_, fun m x hx hd f hf => ?_, fun m hm hi f hf => ?_⟩
  · unfold PH.pointIsInside
    refine forall₂_congr fun f hf => ?_
    obtain ⟨u, N, -, -, hN, -, h1, h2⟩ := height_dist hτ (hp f hf).1 (hp f hf).2
    rw [h1, h2, ge_iff_le, not_le]
    exact ⟨fun h => mul_neg_of_pos_of_neg hN h, fun h => by
      by_contra hc; exact absurd h (not_lt.2 (mul_nonneg hN.le (not_lt.1 hc)))⟩
  · obtain ⟨u, N, -, hu, hN, -, h1, h2⟩ := height_dist hτ (hp f hf).1 (hp f hf).2
    rw [h1, ge_iff_le, not_le]
    have hx' := hx f hf
    rw [h2] at hx'
    have hx0 : (x.sub (ph.vert f.i0)).inner u ≤ 0 := by
      by_contra hc; exact absurd hx' (not_le.2 (mul_pos hN (not_le.1 hc)))
    have hcs : (p.sub x).inner u ≤ ed p x := by
      refine Real.le_sqrt_of_sq_le ?_
      simp only [Spec.sqd, zeo] at hu ⊢
      nlinarith [sq_nonneg ((p.x - x.x) * u.y - (p.y - x.y) * u.x), sq_nonneg ((p.y - x.y) * u.z - (p.z - x.z) * u.y),
        sq_nonneg ((p.z - x.z) * u.x - (p.x - x.x) * u.z)]
    have e : (p.sub (ph.vert f.i0)).inner u = (p.sub x).inner u + (x.sub (ph.vert f.i0)).inner u := by
      simp only [zeo]; ring
    linarith
  · obtain ⟨u, N, -, hu, hN, -, h1, h2⟩ := height_dist hτ (hp f hf).1 (hp f hf).2
    have hi' := hi f hf
    rw [h1, ge_iff_le, not_le] at hi'
    by_cases h0 : (p.sub (ph.vert f.i0)).inner u ≤ 0
    · exact ⟨p, by rw [h2]; exact mul_nonpos_of_nonneg_of_nonpos hN.le h0, by simpa [Spec.ed, Spec.sqd] using hm⟩
    · refine ⟨p.sub (u.mul ((p.sub (ph.vert f.i0)).inner u)), ?_, ?_⟩
      · rw [h2]
        have : ((p.sub (u.mul ((p.sub (ph.vert f.i0)).inner u))).sub (ph.vert f.i0)).inner u =
            (p.sub (ph.vert f.i0)).inner u * (1 - u.sqrNorm) := by simp only [zeo]; ring
        rw [this, hu]; simp
      · have : Spec.sqd p (p.sub (u.mul ((p.sub (ph.vert f.i0)).inner u))) =
            u.sqrNorm * ((p.sub (ph.vert f.i0)).inner u) ^ 2 := by simp only [Spec.sqd, zeo]; ring
        rw [Spec.ed, this, hu, one_mul, Real.sqrt_sq (not_le.1 h0).le]
        exact hi'

/-- If no vertex lies in front of a face (a convex polyhedron), the points of the convex hull of the
vertices are inside, for every positive margin. -/
theorem C55_hull_inside (τ : ℝ) (hτ : 0 ≤ τ) (ph : PH ℝ) (hp : Spec.ProperFaces τ ph)
    (hconv : ∀ f ∈ ph.face, ∀ i < ph.nv, Spec.faceHeight ph f (ph.vert i) ≤ 0) (q : Vec3 ℝ)
    (hq : Spec.InHull {v | ∃ i < ph.nv, v = ph.vert i} q) (m : ℝ) (hm : 0 < m) : ph.pointIsInside q m := by
  refine (C55_pointIsInside τ hτ ph hp q).2.1 m q (fun f hf => ?_) (by simpa [Spec.ed, Spec.sqd] using hm)
  obtain ⟨n, L, v, hv, hL, hs, rfl⟩ := hq
  have hv' : ∀ i, Spec.faceHeight ph f (v i) ≤ 0 := fun i => by
    obtain ⟨j, hj, e⟩ := hv i
    rw [e]; exact hconv f hf j hj
  unfold Spec.faceHeight at hv' ⊢
  generalize ((ph.vert f.i1).sub (ph.vert f.i0)).outer ((ph.vert f.i2).sub (ph.vert f.i0)) = w at *
  generalize ph.vert f.i0 = a at *
  have key : ((⟨∑ i, L i * (v i).x, ∑ i, L i * (v i).y, ∑ i, L i * (v i).z⟩ : Vec3 ℝ).sub a).inner w =
      ∑ i, L i * ((v i).sub a).inner w := by
    have e : ∀ i, L i * ((v i).sub a).inner w = L i * (v i).x * w.x + L i * (v i).y * w.y + L i * (v i).z * w.z
        - L i * (a.inner w) := fun i => by simp only [zeo]; ring
    simp only [e, Finset.sum_sub_distrib, Finset.sum_add_distrib, ← Finset.sum_mul, hs]
    simp only [zeo]; ring
  rw [key]
  exact Finset.sum_nonpos fun i _ => mul_nonpos_of_nonneg_of_nonpos (hL i) (hv' i)

/-! ### The nearest point -/

/-- What `zTri3DSignedClosest` yields on a proper face. -/
private theorem face_closest {τ : ℝ} (hτ : 0 ≤ τ) (hτ' : τ ≤ 1/4) {ph : PH ℝ} (hp : Spec.ProperFaces τ ph)
    (p : Vec3 ℝ) (f : Face ℝ) (hf : f ∈ ph.face) :
    ∃ r, (ph.tri f).signedClosest τ p = some r ∧ Spec.IsNearest (Spec.faceSet ph f) p r.2 ∧ |r.1| = ed p r.2 ∧
      (r.1 < 0 ↔ Spec.faceHeight ph f p < 0) := by
  obtain ⟨h1, h2⟩ := hp f hf
  obtain ⟨r, hr, hn, hd, hs⟩ := C20_signedClosest τ hτ hτ' _ _ _ p h2
  refine ⟨r, ?_, hn, hd, hs⟩
  have : ph.tri f = (Tri3.create τ (ph.vert f.i0) (ph.vert f.i1) (ph.vert f.i2)).2 := by
    have e : (Tri3.create τ (ph.vert f.i0) (ph.vert f.i1) (ph.vert f.i2)).2 =
      ⟨ph.vert f.i0, ph.vert f.i1, ph.vert f.i2, (Tri3.create τ (ph.vert f.i0) (ph.vert f.i1) (ph.vert f.i2)).2.norm⟩ := by
      unfold Tri3.create; dsimp only; split_ifs <;> rfl
    rw [e]
    show (⟨_, _, _, f.norm⟩ : Tri3 ℝ) = _
    congr 1
    exact congrArg Face.norm h1
  rw [this]; exact hr

private theorem closest_fold {τ : ℝ} {ph : PH ℝ} {p : Vec3 ℝ} (R : Face ℝ → ℝ × Vec3 ℝ) (l : List (Face ℝ))
    (hR : ∀ f ∈ l, (ph.tri f).signedClosest τ p = some (R f)) : ∀ s : Option ℝ × Vec3 ℝ,
    let r := l.foldl (ph.closestStep τ p) s
    (r = s ∨ ∃ f ∈ l, 0 < (R f).1 ∧ r = (some (R f).1, (R f).2)) ∧
    (∀ d, s.1 = some d → ∃ e, r.1 = some e ∧ e ≤ d) ∧
    ∀ f ∈ l, 0 < (R f).1 → ∃ e, r.1 = some e ∧ e ≤ (R f).1 := by
  induction l with
  | nil => intro s; exact ⟨Or.inl rfl, fun d h => ⟨d, h, le_rfl⟩, by simp⟩
  | cons g l ih =>
    intro s
    simp only [List.foldl_cons]
    obtain ⟨h1, h2, h3⟩ := ih (fun f hf => hR f (List.mem_cons_of_mem _ hf)) (ph.closestStep τ p s g)
    have hstep : ph.closestStep τ p s g = s ∧ ((0 < (R g).1) → ∃ d, s.1 = some d ∧ d ≤ (R g).1) ∨
        0 < (R g).1 ∧ ph.closestStep τ p s g = (some (R g).1, (R g).2) ∧ ∀ d, s.1 = some d → (R g).1 ≤ d := by
      unfold PH.closestStep
      rw [hR g List.mem_cons_self]
      dsimp only
      by_cases h0 : 0 < (R g).1
      · rw [if_pos h0]
        cases hs : s.1 with
        | none => exact Or.inr ⟨h0, rfl, by simp⟩
        | some d =>
          dsimp only
          by_cases hd : (R g).1 < d
          · rw [if_pos hd]; exact Or.inr ⟨h0, rfl, fun d' e => by obtain rfl := Option.some.inj e; exact hd.le⟩
          · rw [if_neg hd]; exact Or.inl ⟨rfl, fun _ => ⟨d, rfl, not_lt.1 hd⟩⟩
      · rw [if_neg h0]; exact Or.inl ⟨rfl, fun h => absurd h h0⟩
    rcases hstep with ⟨e, hd⟩ | ⟨h0, e, hd⟩
    · rw [e] at h1 h2 h3 ⊢
      refine ⟨h1.imp id ?_, h2, fun f hf hf0 => ?_⟩
      · rintro ⟨f, hf, h⟩; exact ⟨f, List.mem_cons_of_mem _ hf, h⟩
      · rcases List.mem_cons.1 hf with rfl | hf
        · obtain ⟨d, hs, hle⟩ := hd hf0
          obtain ⟨e', he, hle'⟩ := h2 d hs
          exact ⟨e', he, hle'.trans hle⟩
        · exact h3 f hf hf0
    · rw [e] at h1 h2 h3 ⊢
      refine ⟨Or.inr ?_, fun d hs => ?_, fun f hf hf0 => ?_⟩
      · rcases h1 with h1 | ⟨f, hf, h⟩
        · exact ⟨g, List.mem_cons_self, h0, h1⟩
        · exact ⟨f, List.mem_cons_of_mem _ hf, h⟩
      · obtain ⟨e', he, hle⟩ := h2 _ rfl
        exact ⟨e', he, hle.trans (hd d hs)⟩
      · rcases List.mem_cons.1 hf with rfl | hf
        · exact h2 _ rfl
        · exact h3 f hf hf0

/-- `zPH3DClosest` on any mesh: either the point itself with distance 0, and then the point is strictly
behind every face or on the face itself; or a point of a face the query point is not behind, with its
positive distance, and no such face has a nearer point. -/
theorem C55_closest (τ : ℝ) (hτ : 0 ≤ τ) (hτ' : τ ≤ 1/4) (ph : PH ℝ) (hp : Spec.ProperFaces τ ph) (p : Vec3 ℝ) :
    (ph.closest τ p = (0, p) ∧ ∀ f ∈ ph.face, Spec.faceHeight ph f p < 0 ∨ p ∈ Spec.faceSet ph f) ∨
    (∃ f ∈ ph.face, 0 ≤ Spec.faceHeight ph f p ∧ Spec.IsNearest (Spec.faceSet ph f) p (ph.closest τ p).2 ∧
      0 < (ph.closest τ p).1 ∧ (ph.closest τ p).1 = ed p (ph.closest τ p).2 ∧
      ∀ g ∈ ph.face, 0 ≤ Spec.faceHeight ph g p → p ∉ Spec.faceSet ph g →
        ∀ x ∈ Spec.faceSet ph g, (ph.closest τ p).1 ≤ ed p x) := by
  by_cases hne : ph.face = []
  · left
    refine ⟨by rw [PH.closest, if_pos hne], fun f hf => by rw [hne] at hf; simp at hf⟩
  haveI : Inhabited (ℝ × Vec3 ℝ) := ⟨(0, .zero)⟩
  choose! R hR hN hD hS using fun f hf => face_closest hτ hτ' hp p f hf
  obtain ⟨h1, -, h3⟩ := closest_fold R ph.face hR (none, p)
  have hc : ph.closest τ p = (((ph.face.foldl (ph.closestStep τ p) (none, p)).1).getD 0,
      (ph.face.foldl (ph.closestStep τ p) (none, p)).2) := by rw [PH.closest, if_neg hne]
  have zero : ∀ f ∈ ph.face, (R f).1 = 0 → p ∈ Spec.faceSet ph f := by
    intro f hf h0
    have := hD f hf
    rw [h0, abs_zero] at this
    have h4 := (Real.sqrt_eq_zero (sqd_nonneg p (R f).2)).1 this.symm
    have : p = (R f).2 := by
      unfold Spec.sqd at h4
      ext
      · nlinarith [sq_nonneg (p.x - (R f).2.x), sq_nonneg (p.y - (R f).2.y), sq_nonneg (p.z - (R f).2.z)]
      · nlinarith [sq_nonneg (p.x - (R f).2.x), sq_nonneg (p.y - (R f).2.y), sq_nonneg (p.z - (R f).2.z)]
      · nlinarith [sq_nonneg (p.x - (R f).2.x), sq_nonneg (p.y - (R f).2.y), sq_nonneg (p.z - (R f).2.z)]
    rw [this]; exact (hN f hf).1
  rcases h1 with h1 | ⟨f, hf, h0, h1⟩
  · left
    refine ⟨by rw [hc, h1]; rfl, fun f hf => ?_⟩
    rcases lt_trichotomy (R f).1 0 with h | h | h
    · exact Or.inl ((hS f hf).1 h)
    · exact Or.inr (zero f hf h)
    · obtain ⟨e, he, -⟩ := h3 f hf h
      rw [h1] at he; simp at he
  · right
    have hc' : ph.closest τ p = R f := by rw [hc, h1]; rfl
    rw [hc']
    refine ⟨f, hf, ?_, hN f hf, h0, ?_, fun g hg hg0 hgn x hx => ?_⟩
    · by_contra hneg
      have := (hS f hf).2 (not_le.1 hneg)
      linarith
    · rw [← hD f hf, abs_of_pos h0]
    · have hgp : 0 < (R g).1 := by
        rcases lt_trichotomy (R g).1 0 with h | h | h
        · have := (hS g hg).1 h; linarith
        · exact absurd (zero g hg h) hgn
        · exact h
      obtain ⟨e, he, hle⟩ := h3 g hg hgp
      rw [h1] at he
      obtain rfl := Option.some.inj he
      have h5 := hD g hg
      rw [abs_of_pos hgp] at h5
      exact hle.trans (h5.le.trans (Real.sqrt_le_sqrt ((hN g hg).2 x hx)))

private theorem height_affine (ph : PH ℝ) (f : Face ℝ) (x p : Vec3 ℝ) (t : ℝ) :
    Spec.faceHeight ph f (x.cat t (p.sub x)) = Spec.faceHeight ph f x + t * (Spec.faceHeight ph f p - Spec.faceHeight ph f x) := by
  simp only [Spec.faceHeight, zeo]; ring

/-- The first face plane met on the way out. -/
private theorem exit_face (ph : PH ℝ) (x p : Vec3 ℝ) (l : List (Face ℝ)) (hx : ∀ f ∈ l, Spec.faceHeight ph f x ≤ 0)
    (hout : ∃ f ∈ l, 0 < Spec.faceHeight ph f p) :
    ∃ t, 0 ≤ t ∧ t ≤ 1 ∧ (∀ f ∈ l, Spec.faceHeight ph f (x.cat t (p.sub x)) ≤ 0) ∧
      ∃ f ∈ l, 0 < Spec.faceHeight ph f p ∧ Spec.faceHeight ph f (x.cat t (p.sub x)) = 0 := by
  induction l with
  | nil => simp at hout
  | cons g l ih =>
    have hg := hx g List.mem_cons_self
    have hl : ∀ f ∈ l, Spec.faceHeight ph f x ≤ 0 := fun f hf => hx f (List.mem_cons_of_mem _ hf)
    by_cases hrest : ∃ f ∈ l, 0 < Spec.faceHeight ph f p
    · obtain ⟨t, t0, t1, h1, f, hf, h2, h3⟩ := ih hl hrest
      by_cases hgt : Spec.faceHeight ph g (x.cat t (p.sub x)) ≤ 0
      · refine ⟨t, t0, t1, ?_, f, List.mem_cons_of_mem _ hf, h2, h3⟩
        intro f' hf'
        rcases List.mem_cons.1 hf' with rfl | hf'
        · exact hgt
        · exact h1 f' hf'
      · -- `g` is met earlier
        rw [not_le, height_affine] at hgt
        have hgp : 0 < Spec.faceHeight ph g p := by nlinarith
        set a := Spec.faceHeight ph g x
        set b := Spec.faceHeight ph g p
        have hba : 0 < b - a := by linarith
        have hs1 : -a / (b - a) ≤ t := by rw [div_le_iff₀ hba]; linarith
        have hs0 : 0 ≤ -a / (b - a) := div_nonneg (by linarith) hba.le
        refine ⟨-a / (b - a), hs0, hs1.trans t1, ?_, g, List.mem_cons_self, hgp, ?_⟩
        · intro f' hf'
          rcases List.mem_cons.1 hf' with rfl | hf'
          · rw [height_affine]
            have : -a / (b - a) * (b - a) = -a := div_mul_cancel₀ _ hba.ne'
            show a + -a / (b - a) * (b - a) ≤ 0
            linarith
          · have q1 := h1 f' hf'
            have q2 := hl f' hf'
            rw [height_affine] at q1 ⊢
            by_cases hc : 0 ≤ Spec.faceHeight ph f' p - Spec.faceHeight ph f' x
            · nlinarith [mul_le_mul_of_nonneg_right hs1 hc]
            · nlinarith [mul_nonneg hs0 (neg_nonneg.2 (not_le.1 hc).le)]
        · rw [height_affine]
          have : -a / (b - a) * (b - a) = -a := div_mul_cancel₀ _ hba.ne'
          show a + -a / (b - a) * (b - a) = 0
          linarith
    · have hgp : 0 < Spec.faceHeight ph g p := by
        obtain ⟨f, hf, h⟩ := hout
        rcases List.mem_cons.1 hf with rfl | hf
        · exact h
        · exact absurd ⟨f, hf, h⟩ hrest
      set a := Spec.faceHeight ph g x
      set b := Spec.faceHeight ph g p
      have hba : 0 < b - a := by linarith
      have hs0 : 0 ≤ -a / (b - a) := div_nonneg (by linarith) hba.le
      have hs1 : -a / (b - a) ≤ 1 := by rw [div_le_iff₀ hba]; linarith
      have hz : -a / (b - a) * (b - a) = -a := div_mul_cancel₀ _ hba.ne'
      refine ⟨-a / (b - a), hs0, hs1, ?_, g, List.mem_cons_self, hgp, ?_⟩
      · intro f' hf'
        rcases List.mem_cons.1 hf' with rfl | hf'
        · rw [height_affine]; show a + -a / (b - a) * (b - a) ≤ 0; linarith
        · have q2 := hl f' hf'
          have q3 : Spec.faceHeight ph f' p ≤ 0 := by
            by_contra hc; exact hrest ⟨f', hf', not_le.1 hc⟩
          rw [height_affine]
          nlinarith
      · rw [height_affine]; show a + -a / (b - a) * (b - a) = 0; linarith

private theorem sqd_cat_le (x p : Vec3 ℝ) {t : ℝ} (h0 : 0 ≤ t) (h1 : t ≤ 1) :
    Spec.sqd p (x.cat t (p.sub x)) ≤ Spec.sqd p x := by
  have : Spec.sqd p (x.cat t (p.sub x)) = (1 - t) ^ 2 * Spec.sqd p x := by simp only [Spec.sqd, zeo]; ring
  rw [this]
  exact mul_le_of_le_one_left (sqd_nonneg p x) (pow_le_one₀ (by linarith) (by linarith))

/-- A convex polyhedron whose faces cover its boundary: for a point in front of some face, `zPH3DClosest`
delivers the nearest point of the solid and its distance; for a point strictly behind every face, the
point itself and 0. -/
theorem C55_closest_convex (τ : ℝ) (hτ : 0 ≤ τ) (hτ' : τ ≤ 1/4) (ph : PH ℝ) (hp : Spec.ProperFaces τ ph)
    (hconv : ∀ f ∈ ph.face, Spec.faceSet ph f ⊆ Spec.behindAll ph) (hcov : Spec.Covers ph) (p : Vec3 ℝ) :
    (p ∉ Spec.behindAll ph → Spec.IsNearest (Spec.behindAll ph) p (ph.closest τ p).2 ∧
      (ph.closest τ p).1 = ed p (ph.closest τ p).2 ∧ 0 < (ph.closest τ p).1) ∧
    ((∀ f ∈ ph.face, Spec.faceHeight ph f p < 0) → ph.closest τ p = (0, p)) := by
  constructor
  · intro hout
    rcases C55_closest τ hτ hτ' ph hp p with ⟨-, h⟩ | ⟨f, hf, h0, hn, hpos, hd, hmin⟩
    · exfalso
      apply hout
      intro f hf
      rcases h f hf with h | h
      · exact h.le
      · exact hconv f hf h f hf
    · refine ⟨⟨hconv f hf hn.1, fun x hx => ?_⟩, hd, hpos⟩
      have hex : ∃ f ∈ ph.face, 0 < Spec.faceHeight ph f p := by
        by_contra hc
        push Not at hc
        exact hout hc
      obtain ⟨t, t0, t1, hb, f', hf', hfp, hfb⟩ := exit_face ph x p ph.face hx hex
      obtain ⟨g, hg, hsame, hbg⟩ := hcov _ hb f' hf' hfb
      have hgp := hsame p hfp
      have hpg : p ∉ Spec.faceSet ph g := fun hpg => absurd (hconv g hg hpg g hg) (not_le.2 hgp)
      have h1 := hmin g hg hgp.le hpg _ hbg
      rw [hd] at h1
      have h2 := (Real.sqrt_le_sqrt_iff (sqd_nonneg _ _)).1 h1
      exact h2.trans (sqd_cat_le x p t0 t1)
  · intro hin
    rcases C55_closest τ hτ hτ' ph hp p with ⟨h, -⟩ | ⟨f, hf, h0, -⟩
    · exact h
    · exact absurd (hin f hf) (not_lt.2 h0)

/-! ### Meshes that meet the hypotheses -/

private theorem not_tol {τ : ℝ} (h : τ < 1) {v : Vec3 ℝ} (hv : 1 ≤ |v.x| ∨ 1 ≤ |v.y| ∨ 1 ≤ |v.z|) : ¬ v.isTol τ := by
  rintro ⟨a, b, c⟩
  simp only [zIsTol] at a b c
  rcases hv with h | h | h <;> linarith

/-- The corner tetrahedron. -/
noncomputable def exCorner (τ : ℝ) : PH ℝ :=
  let v : ℕ → Vec3 ℝ := fun i => if i = 0 then ⟨0, 0, 0⟩ else if i = 1 then ⟨1, 0, 0⟩ else if i = 2 then ⟨0, 1, 0⟩ else ⟨0, 0, 1⟩
  ⟨4, v, [PH.mkFace τ v 0 2 1, PH.mkFace τ v 0 1 3, PH.mkFace τ v 0 3 2, PH.mkFace τ v 1 2 3]⟩

/-- The corner tetrahedron meets the hypotheses of `C55_closest_convex`, at the largest admitted
tolerance. -/
example : Spec.ProperFaces (1/4) (exCorner (1/4)) ∧
    (∀ f ∈ (exCorner (1/4)).face, Spec.faceSet (exCorner (1/4)) f ⊆ Spec.behindAll (exCorner (1/4))) ∧
    Spec.Covers (exCorner (1/4)) ∧ (⟨1, 1, 1⟩ : Vec3 ℝ) ∉ Spec.behindAll (exCorner (1/4)) := by
  have hS : ∀ x : Vec3 ℝ, x ∈ Spec.behindAll (exCorner (1/4)) ↔ 0 ≤ x.x ∧ 0 ≤ x.y ∧ 0 ≤ x.z ∧ x.x + x.y + x.z ≤ 1 := by
    intro x
    simp only [Spec.behindAll, Set.mem_setOf_eq, exCorner, List.forall_mem_cons, Spec.faceHeight, PH.mkFace]
    simp [zeo]
    constructor
    · rintro ⟨a, b, c, d⟩; refine ⟨by linarith, by linarith, by linarith, by linarith⟩
    · rintro ⟨a, b, c, d⟩; refine ⟨by linarith, by linarith, by linarith, by linarith⟩
  refine ⟨?_, ?_, ?_, ?_⟩
  · intro f hf
    simp only [exCorner, List.mem_cons, List.not_mem_nil, or_false] at hf
    rcases hf with rfl | rfl | rfl | rfl <;> refine ⟨rfl, not_tol (by norm_num) ?_⟩ <;>
      simp [PH.mkFace, exCorner, Tri3.outerProd, zeo]
  · intro f hf x hx
    rw [hS]
    simp only [exCorner, List.mem_cons, List.not_mem_nil, or_false] at hf
    rcases hf with rfl | rfl | rfl | rfl <;> obtain ⟨a, b, c, ha, hb, hc, h1, rfl⟩ := hx <;>
      simp [PH.mkFace, exCorner, Spec.comb] <;> (repeat' apply And.intro) <;> linarith
  · intro x hx f hf h0
    rw [hS] at hx
    obtain ⟨x1, x2, x3, x4⟩ := hx
    refine ⟨f, hf, fun y hy => hy, ?_⟩
    simp only [exCorner, List.mem_cons, List.not_mem_nil, or_false] at hf
    rcases hf with rfl | rfl | rfl | rfl <;> simp [PH.mkFace, exCorner, Spec.faceHeight, zeo] at h0
    · refine ⟨1 - x.x - x.y, x.y, x.x, by linarith, x2, x1, by ring, ?_⟩
      ext <;> simp [PH.mkFace, exCorner, Spec.comb, h0]
    · refine ⟨1 - x.x - x.z, x.x, x.z, by linarith, x1, x3, by ring, ?_⟩
      ext <;> simp [PH.mkFace, exCorner, Spec.comb, h0]
    · refine ⟨1 - x.y - x.z, x.z, x.y, by linarith, x3, x2, by ring, ?_⟩
      ext <;> simp [PH.mkFace, exCorner, Spec.comb, h0]
    · refine ⟨x.x, x.y, x.z, x1, x2, x3, by linarith, ?_⟩
      ext <;> simp [PH.mkFace, exCorner, Spec.comb]
  · rw [hS]; norm_num

/-! ### Points on the surface -/

/-- A point in the plane of a face but not on that face gets a positive distance, wherever it is: also
when it lies on another face. -/
theorem C55_coplanar_wrong (τ : ℝ) (hτ : 0 ≤ τ) (hτ' : τ ≤ 1/4) (ph : PH ℝ) (hp : Spec.ProperFaces τ ph)
    (p : Vec3 ℝ) (g : Face ℝ) (hg : g ∈ ph.face) (h0 : Spec.faceHeight ph g p = 0) (hn : p ∉ Spec.faceSet ph g) :
    0 < ph.distFromPoint τ p := by
  rcases C55_closest τ hτ hτ' ph hp p with ⟨-, h⟩ | ⟨f, -, -, -, h, -⟩
  · rcases h g hg with h | h
    · exact absurd h0 h.ne
    · exact absurd h hn
  · exact h

/-- The pyramid over the unit square; its base consists of two triangles. -/
noncomputable def exHouse (τ : ℝ) : PH ℝ :=
  let v : ℕ → Vec3 ℝ := fun i => if i = 0 then ⟨0, 0, 0⟩ else if i = 1 then ⟨1, 0, 0⟩ else if i = 2 then ⟨1, 1, 0⟩
    else if i = 3 then ⟨0, 1, 0⟩ else ⟨0, 0, 1⟩
  ⟨5, v, [PH.mkFace τ v 0 2 1, PH.mkFace τ v 0 3 2, PH.mkFace τ v 0 1 4, PH.mkFace τ v 1 2 4, PH.mkFace τ v 2 3 4,
    PH.mkFace τ v 3 0 4]⟩

/-- A point on the surface of a convex polyhedron (on its base, behind every face) for which
`zPH3DDistFromPoint` is positive and `zPH3DClosest` delivers another point. -/
theorem C55_surface_wrong (τ : ℝ) (hτ : 0 ≤ τ) (hτ' : τ ≤ 1/4) :
    ∃ (ph : PH ℝ) (p : Vec3 ℝ), Spec.ProperFaces τ ph ∧ (∃ f ∈ ph.face, p ∈ Spec.faceSet ph f) ∧
      p ∈ Spec.behindAll ph ∧ 0 < ph.distFromPoint τ p ∧ (ph.closest τ p).2 ≠ p := by
  have hp : Spec.ProperFaces τ (exHouse τ) := by
    intro f hf
    simp only [exHouse, List.mem_cons, List.not_mem_nil, or_false] at hf
    rcases hf with rfl | rfl | rfl | rfl | rfl | rfl <;> refine ⟨rfl, not_tol (by linarith) ?_⟩ <;>
      simp [PH.mkFace, exHouse, Tri3.outerProd, zeo]
  have hpos : 0 < (exHouse τ).distFromPoint τ ⟨3/4, 1/4, 0⟩ := by
    refine C55_coplanar_wrong τ hτ hτ' _ hp _ _ (List.mem_cons_of_mem _ List.mem_cons_self) ?_ ?_
    · simp [Spec.faceHeight, PH.mkFace, exHouse, zeo]
    · rintro ⟨a, b, c, ha, hb, hc, h1, he⟩
      have e1 := congrArg Vec3.x he
      have e2 := congrArg Vec3.y he
      simp [Spec.comb, PH.mkFace, exHouse] at e1 e2
      linarith
  refine ⟨exHouse τ, ⟨3/4, 1/4, 0⟩, hp, ⟨_, List.mem_cons_self, 1/4, 1/4, 1/2, by norm_num, by norm_num, by norm_num,
    by norm_num, ?_⟩, ?_, hpos, ?_⟩
  · ext <;> simp [Spec.comb, PH.mkFace, exHouse]; norm_num
  · intro f hf
    simp only [exHouse, List.mem_cons, List.not_mem_nil, or_false] at hf
    rcases hf with rfl | rfl | rfl | rfl | rfl | rfl <;> simp [Spec.faceHeight, PH.mkFace, exHouse, zeo] <;> norm_num
  · intro he
    rcases C55_closest τ hτ hτ' _ hp ⟨3/4, 1/4, 0⟩ with ⟨h, -⟩ | ⟨f, -, -, -, -, h, -⟩
    · rw [PH.distFromPoint, h] at hpos; exact lt_irrefl _ hpos
    · rw [he] at h
      rw [PH.distFromPoint, h] at hpos
      simp [Spec.ed, Spec.sqd] at hpos

/-! ### Polyhedra that are not convex -/

/-- A tetrahedron whose base is pushed in to the point (1,1,1). -/
noncomputable def exDented (τ : ℝ) : PH ℝ :=
  let v : ℕ → Vec3 ℝ := fun i => if i = 0 then ⟨0, 0, 0⟩ else if i = 1 then ⟨4, 0, 0⟩ else if i = 2 then ⟨0, 4, 0⟩
    else if i = 3 then ⟨0, 0, 4⟩ else ⟨1, 1, 1⟩
  ⟨5, v, [PH.mkFace τ v 0 1 3, PH.mkFace τ v 1 2 3, PH.mkFace τ v 2 0 3, PH.mkFace τ v 0 2 4, PH.mkFace τ v 2 1 4,
    PH.mkFace τ v 1 0 4]⟩

/-- The inside test presupposes convexity: the solid of this closed mesh consists of the three
tetrahedra over its outer faces with the inner vertex as apex, and a point of one of them is reported
outside, even with margin 1/2. -/
theorem C55_inside_nonconvex (τ : ℝ) (hτ : 0 ≤ τ) (hτ' : τ ≤ 1/4) :
    Spec.ProperFaces τ (exDented τ) ∧
    (⟨9/5, 1, 1⟩ : Vec3 ℝ) ∈ Spec.tetra ((exDented τ).vert 1) ((exDented τ).vert 2) ((exDented τ).vert 3) ((exDented τ).vert 4) ∧
    (exDented τ).volume = 8 ∧ ¬ (exDented τ).pointIsInside ⟨9/5, 1, 1⟩ (1/2) := by
  have hp : Spec.ProperFaces τ (exDented τ) := by
    intro f hf
    simp only [exDented, List.mem_cons, List.not_mem_nil, or_false] at hf
    rcases hf with rfl | rfl | rfl | rfl | rfl | rfl <;> refine ⟨rfl, not_tol (by linarith) ?_⟩ <;>
      simp [PH.mkFace, exDented, Tri3.outerProd, zeo] <;> norm_num
  refine ⟨hp, ⟨2/5, 1/5, 1/5, 1/5, by norm_num, by norm_num, by norm_num, by norm_num, by norm_num, ?_⟩, ?_, ?_⟩
  · ext <;> simp [Spec.comb, exDented] <;> norm_num
  · simp [PH.volume, PH.coneVolume, Tri3.coneVolume, exDented, PH.mkFace, Vec3.grassmann, zeo]; norm_num
  · intro h
    have hf : PH.mkFace τ (exDented τ).vert 0 2 4 ∈ (exDented τ).face := by simp [exDented]
    obtain ⟨x, hx, hd⟩ := (C55_pointIsInside τ hτ _ hp _).2.2 (1/2) (by norm_num) h _ hf
    have hx' : x.x ≤ x.z := by
      simp [Spec.faceHeight, PH.mkFace, exDented, zeo] at hx; linarith
    rw [Spec.ed, Real.sqrt_lt' (by norm_num)] at hd
    simp only [Spec.sqd] at hd
    nlinarith [sq_nonneg (9/5 - x.x + (1 - x.z)), sq_nonneg (1 - x.y)]

end Zeo

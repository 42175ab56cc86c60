import Verif.Model.ShapeAny
import Verif.Props.C18
import Verif.Props.C22
import Verif.Props.C25
import Verif.Props.C31
import Verif.Props.C34
import Verif.Props.C39
import Verif.Props.C49
import Verif.Props.C55
import Verif.Props.C56
import Verif.Props.C57
import Verif.Props.C58

/-! # C62: shapes of any type and compounds of shapes

A user of `zShape3D` and `zMultiShape3D` does not look at the type of a shape: the generic functions have to
answer for the solid the shape describes, and the functions on several shapes have to answer for their union. -/

namespace Zeo
open ZTK

/-- The solid a shape describes.  For a polyhedron: the points behind the planes of all faces, the solid of a
convex polyhedron. -/
def Spec.solid : Body → Set (Vec3 ℝ)
  | .box b => Spec.obox b
  | .sphere s => Spec.ball s.body.center s.body.radius
  | .ellips e => Spec.ellipsoid e.body
  | .cyl c => Spec.cylinder c.body.c0 c.body.c1 c.body.radius
  | .ecyl c => Spec.ecylinder c.body.c0 c.body.c1 c.body.r0 c.body.r1 c.body.rv0 c.body.rv1
  | .capsule c => Spec.capsule c.body.c0 c.body.c1 c.body.radius
  | .cone c => Spec.cone c.body.center c.body.vert c.body.radius
  | .ph p => Spec.behindAll p

/-- A shape with positive dimensions, well above the tolerance, orthonormal axes, and, if it is a polyhedron,
convex with a mesh that covers its surface. -/
def Spec.ProperBody (τ : ℝ) : Body → Prop
  | .box b => b.frame.att.IsRot ∧ 0 < b.span.x ∧ 0 < b.span.y ∧ 0 < b.span.z
  | .sphere s => 0 < s.body.radius
  | .ellips e => e.body.f.att.IsRot ∧ 0 < e.body.radius.x ∧ 0 < e.body.radius.y ∧ 0 < e.body.radius.z
  | .cyl c => 0 < c.body.radius ∧ 4 * τ < Spec.ed c.body.c0 c.body.c1
  | .ecyl c => Spec.ProperECyl c.body ∧ 0 < c.body.r0 ∧ 0 < c.body.r1 ∧ 4 * τ < Spec.ed c.body.c0 c.body.c1 ∧
      τ * Spec.ed c.body.c0 c.body.c1 < 1
  | .capsule c => 0 < c.body.radius ∧ 4 * τ < Spec.ed c.body.c0 c.body.c1
  | .cone c => 0 < c.body.radius ∧ 4 * τ < Spec.ed c.body.center c.body.vert
  | .ph p => Spec.ProperFaces τ p ∧ (∀ f ∈ p.face, Spec.faceSet p f ⊆ Spec.behindAll p) ∧ Spec.Covers p

/-- Where the class methods `_closest` are right: an ellipsoid must not be nearer than the tolerance without
containing the point, the point must not lie above the top face of a cylinder (C25_cyl_return), must not be
almost on the axis of a cone, and must not be on the surface of a polyhedron. -/
def Spec.RegularAt (τ : ℝ) (b : Body) (p : Vec3 ℝ) : Prop :=
  match b with
  | .ellips e => p ∈ Spec.ellipsoid e.body ∨ ∀ q ∈ Spec.ellipsoid e.body, τ < Spec.ed p q
  | .cyl c => ¬ Spec.AboveTop c.body.c0 c.body.c1 c.body.radius p
  | .cone c => Spec.ClearOfAxis τ c.body.center c.body.vert p
  | .ph q => p ∉ Spec.behindAll q ∨ ∀ f ∈ q.face, Spec.faceHeight q f p < 0
  | _ => True

private theorem not_tol {τ : ℝ} (hτ : 0 ≤ τ) {u v : Vec3 ℝ} (h : 4 * τ < Spec.ed u v) : ¬ (v.sub u).isTol τ := by
  intro ht
  have h3 : |v.x - u.x| ≤ τ ∧ |v.y - u.y| ≤ τ ∧ |v.z - u.z| ≤ τ := by
    simpa [Vec3.isTol, zIsTol, Vec3.sub, and_assoc] using ht
  have hx := sq_le_sq' (by linarith [abs_nonneg (v.x - u.x)]) h3.1
  have hy := sq_le_sq' (by linarith [abs_nonneg (v.y - u.y)]) h3.2.1
  have hz := sq_le_sq' (by linarith [abs_nonneg (v.z - u.z)]) h3.2.2
  rw [sq_abs] at hx hy hz
  have : Spec.ed u v ≤ 4 * τ := by
    rw [Spec.ed, Real.sqrt_le_left (by linarith)]
    simp only [Spec.sqd]; nlinarith
  linarith

private theorem sq_cone {τ : ℝ} (hτ : 0 ≤ τ) {u v : Vec3 ℝ} (h : 4 * τ < Spec.ed u v) : 3 * τ ^ 2 < Spec.sqd u v := by
  have h0 : 0 ≤ Spec.sqd u v := by simp only [Spec.sqd]; positivity
  have := Real.sq_sqrt h0
  rw [← Spec.ed] at this
  nlinarith [sq_nonneg τ]

/-- **C62** (`zShape3DClosest`, `zShape3DDistFromPoint`): for a proper shape at a regular point, the closest point
is a nearest point of the solid; the value returned is the distance to it, except that a point inside a sphere
gets a negative value and itself as closest point.  `zShape3DDistFromPoint` returns the same value, except for a
capsule (C25_capsule_dist_partial). -/
theorem C62_closest_partial {solve : List ℝ → List ℂ} (hs : Spec.ExactSolver solve) {τ : ℝ} (hτ : 0 ≤ τ) (hτ' : τ ≤ 1/4)
    (junk : Mat3 ℝ) (b : Body) (hb : Spec.ProperBody τ b) (p : Vec3 ℝ) (hp : Spec.RegularAt τ b p) :
    ∃ r c, b.closest solve τ junk p = some (r, c) ∧ Spec.IsNearest (Spec.solid b) p c ∧
      (r = Spec.ed p c ∨ r < 0 ∧ c = p) ∧
      ((∀ k, b ≠ .capsule k) → b.distFromPoint solve τ junk p = some r) := by
  cases b with
  | box b =>
    have hB : Spec.ProperBox b := ⟨hb.1, hb.2.1.le, hb.2.2.1.le, hb.2.2.2.le⟩
    obtain ⟨h1, h2⟩ := C18_closest b hB p
    exact ⟨_, _, rfl, h1, Or.inl h2, fun _ => rfl⟩
  | sphere s =>
    obtain ⟨h1, h2, h3, h4⟩ := C22_closest s.body p (le_of_lt hb) (Or.inl hb)
    refine ⟨(s.body.closest p).1, (s.body.closest p).2, rfl, h1, ?_, fun _ => by rw [h2]; rfl⟩
    rcases lt_or_ge (Spec.ed s.body.center p) s.body.radius with h | h
    · exact Or.inr ⟨(h3 h).2, (h3 h).1⟩
    · exact Or.inl (h4 h).1
  | ellips e =>
    obtain ⟨⟨h0, -⟩, hx, hy, hz⟩ := hb
    obtain ⟨⟨r, c⟩, h1, h2, h3, h4⟩ := C57_ellips_closest hs hτ e.body ((Mat3.orth_iff _).1 h0) hx hy hz p
    have : p ∈ Spec.ellipsoid e.body ∨ ¬ e.body.pointIsInside p τ := by
      rcases hp with hp | hp
      · exact Or.inl hp
      · refine Or.inr fun hi => ?_
        obtain ⟨q, hq, hd⟩ := (h4 hi).2
        linarith [hp q hq]
    exact ⟨r, c, h1, (h3 this).1, Or.inl (h3 this).2, fun _ => h2⟩
  | cyl c =>
    have ht := not_tol hτ hb.2
    obtain ⟨h1, -⟩ := C25_cyl_closest_partial hτ c.body hb.1.le ht p
    exact ⟨_, _, rfl, h1, Or.inl ((C25_cyl_return hτ c.body hb.1.le ht p).1 hp), fun _ => congrArg some (C25_cyl_dist τ c.body p)⟩
  | ecyl c =>
    obtain ⟨h1, h2, h3, h4, h5⟩ := hb
    obtain ⟨⟨r, q⟩, e1, e2, e3⟩ := C57_ecyl_closest hs hτ (by linarith) c.body h1 h2 h3 (by linarith) h5 p junk
    exact ⟨r, q, e1, e2, Or.inl e3, fun _ => by show (c.body.closest solve τ p junk).map Prod.fst = _; rw [e1]; rfl⟩
  | capsule c =>
    obtain ⟨h1, h2⟩ := C25_capsule_closest hτ c.body hb.1.le (not_tol hτ hb.2) p
    exact ⟨_, _, rfl, h1, Or.inl h2, fun h => absurd rfl (h c)⟩
  | cone c =>
    obtain ⟨r, q, h1, h2, h3, h4⟩ := C25_cone_closest hτ c.body hb.1 (sq_cone hτ hb.2) p hp
    exact ⟨r, q, h1, h3, Or.inl h4, fun _ => h2⟩
  | ph q =>
    obtain ⟨h1, h2⟩ := C55_closest_convex τ hτ hτ' q hb.1 hb.2.1 hb.2.2 p
    refine ⟨(PH.closest τ q p).1, (PH.closest τ q p).2, rfl, ?_, ?_, fun _ => rfl⟩
    · rcases hp with hp | hp
      · exact (h1 hp).1
      · rw [h2 hp]
        exact ⟨fun f hf => (hp f hf).le, fun x _ => by simp only [Spec.sqd, sub_self]; nlinarith [sq_nonneg (p.x - x.x), sq_nonneg (p.y - x.y), sq_nonneg (p.z - x.z)]⟩
    · rcases hp with hp | hp
      · exact Or.inl (h1 hp).2.1
      · rw [h2 hp]; exact Or.inl (by simp [Spec.ed, Spec.sqd])

/-! ## The compound -/

private theorem fold_min (solve : List ℝ → List ℂ) (τ : ℝ) (junk : Mat3 ℝ) (p : Vec3 ℝ) (l : List Body) :
    ∀ s : ℝ × Vec3 ℝ, (∀ b ∈ l, (b.closest solve τ junk p).isSome) →
    ∃ r, l.foldl (closestStep solve τ junk p) (some s) = some r ∧
      (r = s ∨ ∃ b ∈ l, b.closest solve τ junk p = some r) ∧ r.1 ≤ s.1 ∧
      ∀ b ∈ l, ∀ x, b.closest solve τ junk p = some x → r.1 ≤ x.1 := by
  induction l with
  | nil => intro s _; exact ⟨s, rfl, Or.inl rfl, le_rfl, fun b hb => absurd hb (by simp)⟩
  | cons b l ih =>
    intro s h
    obtain ⟨x, hx⟩ := Option.isSome_iff_exists.1 (h b (by simp))
    have hl : ∀ b ∈ l, (b.closest solve τ junk p).isSome := fun b hb => h b (by simp [hb])
    simp only [List.foldl_cons, closestStep, hx]
    by_cases hlt : x.1 < s.1
    · rw [if_pos hlt]
      obtain ⟨r, h1, h2, h3, h4⟩ := ih x hl
      refine ⟨r, h1, Or.inr ?_, by linarith, ?_⟩
      · rcases h2 with rfl | ⟨b', hb', e⟩
        · exact ⟨b, by simp, hx⟩
        · exact ⟨b', by simp [hb'], e⟩
      · intro b' hb' y hy
        rcases List.mem_cons.1 hb' with rfl | hb'
        · rw [hx] at hy; cases hy; exact h3
        · exact h4 b' hb' y hy
    · rw [if_neg hlt]
      obtain ⟨r, h1, h2, h3, h4⟩ := ih s hl
      refine ⟨r, h1, ?_, h3, ?_⟩
      · rcases h2 with rfl | ⟨b', hb', e⟩
        · exact Or.inl rfl
        · exact Or.inr ⟨b', by simp [hb'], e⟩
      · intro b' hb' y hy
        rcases List.mem_cons.1 hb' with rfl | hb'
        · rw [hx] at hy; cases hy; linarith [not_lt.1 hlt]
        · exact h4 b' hb' y hy

/-- **C62** (`zMultiShape3DClosest`, `zShape3DListClosest`): the answer is that of one of the shapes, and no shape
answers with a smaller value.  Holds for any shapes whose own answers are defined. -/
theorem C62_multi_min (solve : List ℝ → List ℂ) (τ : ℝ) (junk : Mat3 ℝ) (l : List Body) (hl : l ≠ []) (p : Vec3 ℝ)
    (h : ∀ b ∈ l, (b.closest solve τ junk p).isSome) :
    ∃ r, multiClosest solve τ junk l p = some r ∧ (∃ b ∈ l, b.closest solve τ junk p = some r) ∧
      ∀ b ∈ l, ∀ x, b.closest solve τ junk p = some x → r.1 ≤ x.1 := by
  cases l with
  | nil => exact absurd rfl hl
  | cons b l =>
    obtain ⟨x, hx⟩ := Option.isSome_iff_exists.1 (h b (by simp))
    obtain ⟨r, h1, h2, h3, h4⟩ := fold_min solve τ junk p l x fun b hb => h b (by simp [hb])
    refine ⟨r, by simp only [multiClosest, hx, h1], ?_, ?_⟩
    · rcases h2 with rfl | ⟨b', hb', e⟩
      · exact ⟨b, by simp, hx⟩
      · exact ⟨b', by simp [hb'], e⟩
    · intro b' hb' y hy
      rcases List.mem_cons.1 hb' with rfl | hb'
      · rw [hx] at hy; cases hy; exact h3
      · exact h4 b' hb' y hy

private theorem sqd_self_le (p q : Vec3 ℝ) : Spec.sqd p p ≤ Spec.sqd p q := by
  simp only [Spec.sqd, sub_self]; nlinarith [sq_nonneg (p.x - q.x), sq_nonneg (p.y - q.y), sq_nonneg (p.z - q.z)]

/-- **C62** (`zMultiShape3DClosest`): for proper shapes at a regular point, the answer is a nearest point of the
union of the solids, and the value is the distance to it, or negative when the point is inside a sphere.
Missing: the points above the top face of a cylinder, see C62_multi_closest_wrong. -/
theorem C62_multi_closest_partial {solve : List ℝ → List ℂ} (hs : Spec.ExactSolver solve) {τ : ℝ} (hτ : 0 ≤ τ) (hτ' : τ ≤ 1/4)
    (junk : Mat3 ℝ) (l : List Body) (hl : l ≠ []) (hb : ∀ b ∈ l, Spec.ProperBody τ b) (p : Vec3 ℝ)
    (hp : ∀ b ∈ l, Spec.RegularAt τ b p) :
    ∃ r c, multiClosest solve τ junk l p = some (r, c) ∧
      Spec.IsNearest {q | ∃ b ∈ l, q ∈ Spec.solid b} p c ∧ (r = Spec.ed p c ∨ r < 0 ∧ c = p) := by
  have key := fun b (h : b ∈ l) => C62_closest_partial hs hτ hτ' junk b (hb b h) p (hp b h)
  obtain ⟨⟨r, c⟩, h1, ⟨b, hm, e⟩, h3⟩ := C62_multi_min solve τ junk l hl p fun b h => by
    obtain ⟨r, c, e, -⟩ := key b h; simp [e]
  obtain ⟨r', c', e', n1, n2, -⟩ := key b hm
  rw [e] at e'; cases e'
  refine ⟨r, c, h1, ⟨⟨b, hm, n1.1⟩, ?_⟩, n2⟩
  rintro q ⟨b', hm', hq⟩
  rcases n2 with n2 | ⟨-, rfl⟩
  · obtain ⟨r', c', e', m1, m2, -⟩ := key b' hm'
    have hle := h3 b' hm' _ e'
    dsimp only at hle
    rcases m2 with m2 | ⟨m2, -⟩
    · refine le_trans ?_ (m1.2 q hq)
      rw [n2, m2] at hle
      exact (Real.sqrt_le_sqrt_iff (by simp only [Spec.sqd]; positivity)).1 hle
    · have : 0 ≤ Spec.ed p c := Real.sqrt_nonneg _
      linarith
  · exact sqd_self_le _ _

private noncomputable def wcyl : Cyl ℝ := ⟨⟨0,0,0⟩, ⟨0,0,2⟩, 1⟩
private noncomputable def wsph : Sphere3 ℝ := ⟨⟨0,0,7⟩, 1⟩

/-- The code is wrong above the top face of a cylinder: the negative distance of the cylinder (3 below the point)
wins over the sphere, which is at distance 1. -/
theorem C62_multi_closest_wrong (solve : List ℝ → List ℂ) (junk : Mat3 ℝ) :
    ∃ (l : List Body) (p : Vec3 ℝ) (r : ℝ) (c : Vec3 ℝ), (∀ b ∈ l, Spec.ProperBody (1/1000) b) ∧
      multiClosest solve (1/1000) junk l p = some (r, c) ∧ ¬ Spec.IsNearest {q | ∃ b ∈ l, q ∈ Spec.solid b} p c := by
  have hax : ¬ wcyl.axis.isTol (1/1000) := by
    simp only [Vec3.isTol, zIsTol, Cyl.axis, wcyl, zeo]; norm_num
  have hab : Spec.AboveTop wcyl.c0 wcyl.c1 wcyl.radius ⟨0,0,5⟩ := by
    refine ⟨5/2, by norm_num, ?_, ?_⟩
    · simp only [Spec.Perp, Spec.comb, wcyl]; norm_num
    · simp only [Spec.ed, Spec.sqd, Spec.comb, wcyl]; norm_num
  have hret := ((C25_cyl_return (τ := 1/1000) (by norm_num) wcyl (by norm_num [wcyl]) hax ⟨0,0,5⟩).2 hab).2
  have hnear := (C25_cyl_closest_partial (τ := 1/1000) (by norm_num) wcyl (by norm_num [wcyl]) hax ⟨0,0,5⟩).1
  have hs : 0 ≤ (wsph.closest ⟨0,0,5⟩).1 := by
    have := (C22_closest wsph ⟨0,0,5⟩ (by norm_num [wsph]) (Or.inl (by norm_num [wsph]))).2.2.2
      (by
        have e : Spec.ed wsph.center ⟨0,0,5⟩ = 2 := by
          rw [Spec.ed, Real.sqrt_eq_iff_mul_self_eq_of_pos (by norm_num)]; norm_num [Spec.sqd, wsph]
        rw [e]; norm_num [wsph])
    rw [this.1]; exact Real.sqrt_nonneg _
  refine ⟨[.cyl ⟨wcyl, 32⟩, .sphere ⟨wsph, 32⟩], ⟨0,0,5⟩, (wcyl.closest (1/1000) ⟨0,0,5⟩).1, (wcyl.closest (1/1000) ⟨0,0,5⟩).2, ?_, ?_, ?_⟩
  · intro b hb
    simp only [List.mem_cons, List.not_mem_nil, or_false] at hb
    rcases hb with rfl | rfl
    · refine ⟨by norm_num [wcyl], ?_⟩
      have e : Spec.ed wcyl.c0 wcyl.c1 = 2 := by
        rw [Spec.ed, Real.sqrt_eq_iff_mul_self_eq_of_pos (by norm_num)]; norm_num [Spec.sqd, wcyl]
      show _ < Spec.ed wcyl.c0 wcyl.c1
      rw [e]; norm_num
    · show 0 < wsph.radius; norm_num [wsph]
  · simp only [multiClosest, List.foldl_cons, List.foldl_nil, closestStep, Body.closest]
    rw [if_neg (by linarith)]
  · rintro ⟨-, h⟩
    have h6 := h ⟨0,0,6⟩ ⟨.sphere ⟨wsph, 32⟩, by simp, by
      show Spec.ed wsph.center _ ≤ wsph.radius
      rw [Spec.ed, Real.sqrt_le_left (by norm_num [wsph])]; norm_num [Spec.sqd, wsph]⟩
    obtain ⟨m, ⟨s, t, h0, h1, h01, rfl⟩, hp, hd⟩ := hnear.1
    simp only [Spec.sqd, Spec.Perp, Spec.comb, wcyl] at h6 hp
    generalize (Cyl.closest (1/1000) wcyl ⟨0,0,5⟩).2 = q at *
    norm_num at h6 hp
    nlinarith [sq_nonneg q.x, sq_nonneg q.y]

/-! ## Inside tests -/

/-- **C62** (`zShape3DPointIsInside`), all types but the capsule: without a margin, only points of the solid pass;
with any positive margin every point of the solid passes. -/
theorem C62_inside_partial {τ : ℝ} (hτ : 0 ≤ τ) (hτ' : τ ≤ 1/4) (junk : Mat3 ℝ) (b : Body) (hb : Spec.ProperBody τ b)
    (hc : ∀ k, b ≠ .capsule k) (p : Vec3 ℝ) :
    (b.pointIsInside τ junk p 0 → p ∈ Spec.solid b) ∧
    (∀ m, 0 < m → p ∈ Spec.solid b → b.pointIsInside τ junk p m) := by
  have ed0 : Spec.ed p p = 0 := by simp [Spec.ed, Spec.sqd]
  cases b with
  | box b =>
    have hk := fun m => C18_inside b hb.1 p m
    refine ⟨fun h => ?_, fun m hm h => (hk m).2 ?_⟩
    · obtain ⟨s, t, u, h1, h2, h3, e⟩ := (hk 0).1 h
      exact ⟨s, t, u, by linarith, by linarith, by linarith, e⟩
    · obtain ⟨s, t, u, h1, h2, h3, e⟩ := h
      exact ⟨s, t, u, by linarith, by linarith, by linarith, e⟩
  | sphere s =>
    refine ⟨fun h => ?_, fun m hm h => (C22_pointIsInside _ _ _).2 ?_⟩
    · have := (C22_pointIsInside _ _ _).1 h
      show Spec.ed _ _ ≤ _; linarith
    · have : Spec.ed _ _ ≤ _ := h
      linarith
  | ellips e =>
    obtain ⟨⟨h0, -⟩, hx, hy, hz⟩ := hb
    have hk := fun m (hm : 0 ≤ m) => C57_ellips_inside e.body ((Mat3.orth_iff _).1 h0) hx hy hz p (m := m) hm
    refine ⟨fun h => ?_, fun m hm h => (hk m hm.le).1 hm h⟩
    obtain ⟨q, hq, hd⟩ := (hk 0 le_rfl).2.1 h
    have hd0 : Spec.sqd p q ≤ 0 := by
      have := Real.sqrt_eq_zero'.1 (le_antisymm hd (Real.sqrt_nonneg _)); exact this
    have : p = q := by
      simp only [Spec.sqd] at hd0
      have hx : p.x - q.x = 0 := by nlinarith [sq_nonneg (p.x - q.x), sq_nonneg (p.y - q.y), sq_nonneg (p.z - q.z)]
      have hy : p.y - q.y = 0 := by nlinarith [sq_nonneg (p.x - q.x), sq_nonneg (p.y - q.y), sq_nonneg (p.z - q.z)]
      have hz : p.z - q.z = 0 := by nlinarith [sq_nonneg (p.x - q.x), sq_nonneg (p.y - q.y), sq_nonneg (p.z - q.z)]
      ext <;> linarith
    rw [this]; exact hq
  | cyl c =>
    obtain ⟨h1, h2, -⟩ := C25_cyl_inside hτ c.body hb.1.le (not_tol hτ hb.2) p
    exact ⟨h1, fun m hm h => h2 m p h (by rw [ed0]; exact hm)⟩
  | ecyl c =>
    obtain ⟨e1, e2, e3, e4, -⟩ := hb
    have hk := fun m (hm : 0 ≤ m) => C57_ecyl_inside hτ (by linarith) c.body e1 e2 e3 (not_tol hτ e4) p (m := m) hm junk
    exact ⟨(hk 0 le_rfl).2.2, fun m hm h => (hk m hm.le).1 hm h⟩
  | capsule c => exact absurd rfl (hc c)
  | cone c =>
    obtain ⟨h1, h2⟩ := C25_cone_inside hτ c.body hb.1 (sq_cone hτ hb.2) p
    exact ⟨h1, fun m hm h => h2 m p h (by rw [ed0]; exact hm)⟩
  | ph q =>
    obtain ⟨h1, h2, -⟩ := C55_pointIsInside τ hτ q hb.1 p
    exact ⟨fun h f hf => (h1.1 h f hf).le, fun m hm h => h2 m p h (by rw [ed0]; exact hm)⟩

theorem multiInside_iff (τ : ℝ) (junk : Mat3 ℝ) (l : List Body) (p : Vec3 ℝ) (m : ℝ) :
    multiInside τ junk l p m ↔ ∃ b ∈ l, b.pointIsInside τ junk p m := by
  induction l with
  | nil => simp [multiInside]
  | cons b l ih =>
    simp only [multiInside, List.mem_cons, exists_eq_or_imp]
    by_cases h : b.pointIsInside τ junk p m <;> simp [h, ih]

/-- **C62** (`zMultiShape3DPointIsInside`), no capsule among the shapes: the test answers for the union of the
solids. -/
theorem C62_multi_inside_partial {τ : ℝ} (hτ : 0 ≤ τ) (hτ' : τ ≤ 1/4) (junk : Mat3 ℝ) (l : List Body)
    (hb : ∀ b ∈ l, Spec.ProperBody τ b) (hc : ∀ b ∈ l, ∀ k, b ≠ .capsule k) (p : Vec3 ℝ) :
    (multiInside τ junk l p 0 → ∃ b ∈ l, p ∈ Spec.solid b) ∧
    (∀ m, 0 < m → (∃ b ∈ l, p ∈ Spec.solid b) → multiInside τ junk l p m) := by
  simp only [multiInside_iff]
  refine ⟨?_, ?_⟩
  · rintro ⟨b, h, hi⟩
    exact ⟨b, h, (C62_inside_partial hτ hτ' junk b (hb b h) (hc b h) p).1 hi⟩
  · rintro m hm ⟨b, h, hi⟩
    exact ⟨b, h, (C62_inside_partial hτ hτ' junk b (hb b h) (hc b h) p).2 m hm hi⟩

/-- A capsule among the shapes breaks the test in both directions: (0,0,5) is outside but passes, the center
(0,0,1) is inside but does not. -/
theorem C62_multi_inside_wrong (junk : Mat3 ℝ) : ∃ b : Body, Spec.ProperBody (1/1000) b ∧
    (∃ p, p ∉ Spec.solid b ∧ multiInside (1/1000) junk [b] p 0) ∧
    (∃ p, p ∈ Spec.solid b ∧ ∀ q, Spec.sqd p q < 1 → q ∈ Spec.solid b ∧ ¬ multiInside (1/1000) junk [b] q 0) := by
  have hax : ¬ wcyl.axis.isTol (1/1000) := by
    simp only [Vec3.isTol, zIsTol, Cyl.axis, wcyl, zeo]; norm_num
  have hi := fun p => C25_capsule_inside_inverted (τ := 1/1000) (by norm_num) wcyl (by norm_num [wcyl]) hax p
  have hin : ∀ q, Spec.sqd ⟨0,0,1⟩ q < 1 → q ∈ Spec.capsule wcyl.c0 wcyl.c1 wcyl.radius := by
    intro q hq
    refine ⟨⟨0,0,1⟩, ⟨1/2, 1/2, by norm_num, by norm_num, by norm_num, by simp only [Spec.comb, wcyl]; ext <;> norm_num⟩, ?_⟩
    rw [Spec.ed, Real.sqrt_le_left (by norm_num [wcyl])]
    simp only [Spec.sqd, wcyl] at *; norm_num; linarith
  refine ⟨.capsule ⟨wcyl, 32⟩, ⟨by norm_num [wcyl], ?_⟩, ⟨⟨0,0,5⟩, ?_⟩, ⟨0,0,1⟩, hin _ (by norm_num [Spec.sqd]), fun q hq => ⟨hin q hq, ?_⟩⟩
  · have e : Spec.ed wcyl.c0 wcyl.c1 = 2 := by
      rw [Spec.ed, Real.sqrt_eq_iff_mul_self_eq_of_pos (by norm_num)]; norm_num [Spec.sqd, wcyl]
    show _ < Spec.ed wcyl.c0 wcyl.c1
    rw [e]; norm_num
  · have hout : (⟨0,0,5⟩ : Vec3 ℝ) ∉ Spec.capsule wcyl.c0 wcyl.c1 wcyl.radius := by
      rintro ⟨m, ⟨s, t, h0, h1, h01, rfl⟩, hd⟩
      rw [Spec.ed, Real.sqrt_le_left (by norm_num [wcyl])] at hd
      simp only [Spec.sqd, Spec.comb, wcyl] at hd
      norm_num at hd; linarith [(abs_le.1 hd).1]
    refine ⟨hout, ?_⟩
    rw [multiInside_iff]
    exact ⟨_, List.mem_singleton_self _, (hi _).2 ⟨by right; simp only [wcyl]; norm_num, hout⟩⟩
  · rw [multiInside_iff]
    rintro ⟨b, hb, h⟩
    obtain rfl := List.mem_singleton.1 hb
    exact ((hi q).1 h).2 (hin q hq)

/-! ## Mass properties -/

open MeasureTheory in
private theorem integral_affine {S : Set (Vec3 ℝ)} {M : ℝ} (hS : ∀ q ∈ S, |q.x| ≤ M ∧ |q.y| ≤ M ∧ |q.z| ≤ M)
    {f : Vec3 ℝ → ℝ} (hf : Continuous fun p : Fin 3 → ℝ => f ⟨p 0, p 1, p 2⟩) (a b c d : ℝ) :
    Spec.integral S (fun q => f q + (a * q.x + b * q.y + c * q.z + d * 1)) =
      Spec.integral S f + (a * Spec.integral S (fun q => q.x) + b * Spec.integral S (fun q => q.y) +
        c * Spec.integral S (fun q => q.z) + d * Spec.integral S (fun _ => 1)) := by
  have hsub : Spec.pts S ⊆ Set.Icc (fun _ => -M) (fun _ => M) := by
    intro p hp
    obtain ⟨h0, h1, h2⟩ := hS _ hp
    simp only at h0 h1 h2
    rw [abs_le] at h0 h1 h2
    constructor
    · intro i
      rcases (by decide : ∀ i : Fin 3, i = 0 ∨ i = 1 ∨ i = 2) i with rfl | rfl | rfl
      exacts [h0.1, h1.1, h2.1]
    · intro i
      rcases (by decide : ∀ i : Fin 3, i = 0 ∨ i = 1 ∨ i = 2) i with rfl | rfl | rfl
      exacts [h0.2, h1.2, h2.2]
  have hi : ∀ {g : (Fin 3 → ℝ) → ℝ}, Continuous g → IntegrableOn g (Spec.pts S) := fun hg =>
    hg.integrableOn_Icc.mono_set hsub
  have hx : Continuous fun p : Fin 3 → ℝ => a * p 0 := by fun_prop
  have hy : Continuous fun p : Fin 3 → ℝ => b * p 1 := by fun_prop
  have hz : Continuous fun p : Fin 3 → ℝ => c * p 2 := by fun_prop
  have h1 : Continuous fun p : Fin 3 → ℝ => d * (1 : ℝ) := by fun_prop
  have hxy : Continuous fun p : Fin 3 → ℝ => a * p 0 + b * p 1 := by fun_prop
  have hxyz : Continuous fun p : Fin 3 → ℝ => a * p 0 + b * p 1 + c * p 2 := by fun_prop
  have hall : Continuous fun p : Fin 3 → ℝ => a * p 0 + b * p 1 + c * p 2 + d * 1 := by fun_prop
  unfold Spec.integral
  dsimp only
  rw [integral_add (hi hf) (hi hall), integral_add (hi hxyz) (hi h1),
    integral_add (hi hxy) (hi hz), integral_add (hi hx) (hi hy), integral_const_mul, integral_const_mul,
    integral_const_mul, integral_const_mul]

/-- The parallel axis theorem: the inertia tensor about the origin from the one about the centroid. -/
private theorem parallel_axis {S : Set (Vec3 ℝ)} {M : ℝ} (hS : ∀ q ∈ S, |q.x| ≤ M ∧ |q.y| ≤ M ∧ |q.z| ≤ M)
    {V ρ : ℝ} {b : Vec3 ℝ} {I : Mat3 ℝ} (hV : Spec.IsVolume S V) (hb : Spec.IsCentroid S b) (hI : Spec.IsInertia S ρ b I) :
    Spec.IsInertia S ρ .zero (I.catDoubleOuter (-(ρ * V)) b) := by
  obtain ⟨-, h1, h2, h3⟩ := hb
  rw [show Spec.integral S (fun _ => 1) = V from hV] at h1 h2 h3
  intro i j
  have hij := hI i j
  unfold Spec.inertia at hij ⊢
  have key := fun a c d e => integral_affine (f := fun q => (if i = j then Spec.sqd q b else 0) - (q.toFin i - b.toFin i) * (q.toFin j - b.toFin j)) hS
    (by
      rcases (by decide : ∀ i : Fin 3, i = 0 ∨ i = 1 ∨ i = 2) i with rfl | rfl | rfl <;>
      rcases (by decide : ∀ i : Fin 3, i = 0 ∨ i = 1 ∨ i = 2) j with rfl | rfl | rfl <;>
      simp [Spec.sqd, Vec3.toFin] <;> fun_prop) a c d e
  rw [h1, h2, h3, show Spec.integral S (fun _ => 1) = V from hV] at key
  have k := key ((if i = j then 2 * b.x else 0) - ((if j = 0 then b.toFin i else 0) + if i = 0 then b.toFin j else 0))
    ((if i = j then 2 * b.y else 0) - ((if j = 1 then b.toFin i else 0) + if i = 1 then b.toFin j else 0))
    ((if i = j then 2 * b.z else 0) - ((if j = 2 then b.toFin i else 0) + if i = 2 then b.toFin j else 0))
    (b.toFin i * b.toFin j - if i = j then b.x ^ 2 + b.y ^ 2 + b.z ^ 2 else 0)
  have hfun : (fun q : Vec3 ℝ => (if i = j then Spec.sqd q .zero else 0) -
      (q.toFin i - Vec3.zero.toFin i) * (q.toFin j - Vec3.zero.toFin j)) = fun q : Vec3 ℝ => ((if i = j then Spec.sqd q b else 0) -
      (q.toFin i - b.toFin i) * (q.toFin j - b.toFin j)) +
      (((if i = j then 2 * b.x else 0) - ((if j = 0 then b.toFin i else 0) + if i = 0 then b.toFin j else 0)) * q.x +
       ((if i = j then 2 * b.y else 0) - ((if j = 1 then b.toFin i else 0) + if i = 1 then b.toFin j else 0)) * q.y +
       ((if i = j then 2 * b.z else 0) - ((if j = 2 then b.toFin i else 0) + if i = 2 then b.toFin j else 0)) * q.z +
       (b.toFin i * b.toFin j - if i = j then b.x ^ 2 + b.y ^ 2 + b.z ^ 2 else 0) * 1) := by
    funext q
    rcases (by decide : ∀ i : Fin 3, i = 0 ∨ i = 1 ∨ i = 2) i with rfl | rfl | rfl <;>
    rcases (by decide : ∀ i : Fin 3, i = 0 ∨ i = 1 ∨ i = 2) j with rfl | rfl | rfl <;>
    simp [Spec.sqd, Vec3.toFin, Vec3.zero] <;> ring
  rw [hfun, k, mul_add, ← hij]
  rcases (by decide : ∀ i : Fin 3, i = 0 ∨ i = 1 ∨ i = 2) i with rfl | rfl | rfl <;>
  rcases (by decide : ∀ i : Fin 3, i = 0 ∨ i = 1 ∨ i = 2) j with rfl | rfl | rfl <;>
  simp [Vec3.toFin, Mat3.toMatrix, Mat3.catDoubleOuter] <;> ring

private def ell (v : Vec3 ℝ) : ℝ := |v.x| + |v.y| + |v.z|
private theorem ell_x (v : Vec3 ℝ) : |v.x| ≤ ell v := by unfold ell; linarith [abs_nonneg v.y, abs_nonneg v.z]
private theorem ell_y (v : Vec3 ℝ) : |v.y| ≤ ell v := by unfold ell; linarith [abs_nonneg v.x, abs_nonneg v.z]
private theorem ell_z (v : Vec3 ℝ) : |v.z| ≤ ell v := by unfold ell; linarith [abs_nonneg v.y, abs_nonneg v.x]

private theorem abs_ed (m q : Vec3 ℝ) {R : ℝ} (h : Spec.ed m q ≤ R) : |q.x - m.x| ≤ R ∧ |q.y - m.y| ≤ R ∧ |q.z - m.z| ≤ R := by
  have h0 : 0 ≤ R := (Real.sqrt_nonneg _).trans h
  rw [Spec.ed, Real.sqrt_le_left h0, Spec.sqd] at h
  refine ⟨abs_le_of_sq_le_sq ?_ h0, abs_le_of_sq_le_sq ?_ h0, abs_le_of_sq_le_sq ?_ h0⟩ <;>
  nlinarith [sq_nonneg (m.x - q.x), sq_nonneg (m.y - q.y), sq_nonneg (m.z - q.z)]

private theorem bdd1 {a b u v m q R Mu Mv : ℝ} (ha : 0 ≤ a) (hb : 0 ≤ b) (hab : a + b = 1) (hm : m = a * u + b * v)
    (hu : |u| ≤ Mu) (hv : |v| ≤ Mv) (h : |q - m| ≤ R) : |q| ≤ Mu + Mv + R := by
  rw [abs_le] at *
  have : a ≤ 1 := by linarith
  have : b ≤ 1 := by linarith
  constructor <;> nlinarith

/-- The solid of a proper shape that is not a polyhedron is bounded. -/
private theorem solid_bdd {τ : ℝ} {b : Body} (hb : Spec.ProperBody τ b) (hp : ∀ q, b ≠ .ph q) :
    ∃ M, ∀ q ∈ Spec.solid b, |q.x| ≤ M ∧ |q.y| ≤ M ∧ |q.z| ≤ M := by
  have lin3 : ∀ {c s t u x y z S T U C X Y Z : ℝ}, |s| ≤ S → |t| ≤ T → |u| ≤ U → |c| ≤ C → |x| ≤ X → |y| ≤ Y → |z| ≤ Z →
      |c + s * x + t * y + u * z| ≤ C + S * X + T * Y + U * Z := by
    intro c s t u x y z S T U C X Y Z hs ht hu hc hx hy hz
    have e1 := mul_le_mul hs hx (abs_nonneg _) ((abs_nonneg _).trans hs)
    have e2 := mul_le_mul ht hy (abs_nonneg _) ((abs_nonneg _).trans ht)
    have e3 := mul_le_mul hu hz (abs_nonneg _) ((abs_nonneg _).trans hu)
    rw [← abs_mul] at e1 e2 e3
    have := abs_add_le (c + s * x + t * y) (u * z)
    have := abs_add_le (c + s * x) (t * y)
    have := abs_add_le c (s * x)
    linarith
  have sq1 : ∀ {x r : ℝ}, 0 < r → (x / r) ^ 2 ≤ 1 → |x| ≤ r := by
    intro x r hr h
    have := abs_le_of_sq_le_sq (show (x / r) ^ 2 ≤ 1 ^ 2 by linarith) zero_le_one
    rw [abs_div, abs_of_pos hr, div_le_one hr] at this
    exact this
  cases b with
  | box b =>
    refine ⟨ell b.frame.pos + b.span.x * ell b.frame.att.x + b.span.y * ell b.frame.att.y + b.span.z * ell b.frame.att.z, ?_⟩
    rintro q ⟨s, t, u, h1, h2, h3, rfl⟩
    have h1 : |s| ≤ b.span.x := by linarith [abs_nonneg s]
    have h2 : |t| ≤ b.span.y := by linarith [abs_nonneg t]
    have h3 : |u| ≤ b.span.z := by linarith [abs_nonneg u]
    exact ⟨lin3 h1 h2 h3 (ell_x _) (ell_x _) (ell_x _) (ell_x _), lin3 h1 h2 h3 (ell_y _) (ell_y _) (ell_y _) (ell_y _),
      lin3 h1 h2 h3 (ell_z _) (ell_z _) (ell_z _) (ell_z _)⟩
  | sphere s =>
    refine ⟨ell s.body.center + ell s.body.center + s.body.radius, fun q hq => ?_⟩
    obtain ⟨hx, hy, hz⟩ := abs_ed _ _ hq
    exact ⟨bdd1 zero_le_one le_rfl (add_zero 1) (by ring) (ell_x _) (ell_x _) hx, bdd1 zero_le_one le_rfl (add_zero 1) (by ring) (ell_y _) (ell_y _) hy,
      bdd1 zero_le_one le_rfl (add_zero 1) (by ring) (ell_z _) (ell_z _) hz⟩
  | ellips e =>
    obtain ⟨-, hx, hy, hz⟩ := hb
    refine ⟨ell e.body.f.pos + e.body.radius.x * ell e.body.f.att.x + e.body.radius.y * ell e.body.f.att.y + e.body.radius.z * ell e.body.f.att.z, ?_⟩
    rintro q ⟨s, t, u, h, e1, e2, e3⟩
    have h1 := sq1 (x := s) hx (by nlinarith [sq_nonneg (s / e.body.radius.x), sq_nonneg (t / e.body.radius.y), sq_nonneg (u / e.body.radius.z)])
    have h2 := sq1 (x := t) hy (by nlinarith [sq_nonneg (s / e.body.radius.x), sq_nonneg (t / e.body.radius.y), sq_nonneg (u / e.body.radius.z)])
    have h3 := sq1 (x := u) hz (by nlinarith [sq_nonneg (s / e.body.radius.x), sq_nonneg (t / e.body.radius.y), sq_nonneg (u / e.body.radius.z)])
    rw [e1, e2, e3]
    exact ⟨lin3 h1 h2 h3 (ell_x _) (ell_x _) (ell_x _) (ell_x _), lin3 h1 h2 h3 (ell_y _) (ell_y _) (ell_y _) (ell_y _),
      lin3 h1 h2 h3 (ell_z _) (ell_z _) (ell_z _) (ell_z _)⟩
  | cyl c =>
    refine ⟨ell c.body.c0 + ell c.body.c1 + c.body.radius, ?_⟩
    rintro q ⟨m, ⟨a, b, ha, hb, hab, rfl⟩, -, hd⟩
    obtain ⟨hx, hy, hz⟩ := abs_ed _ _ hd
    exact ⟨bdd1 ha hb hab (by simp [Spec.comb]) (ell_x _) (ell_x _) hx, bdd1 ha hb hab (by simp [Spec.comb]) (ell_y _) (ell_y _) hy,
      bdd1 ha hb hab (by simp [Spec.comb]) (ell_z _) (ell_z _) hz⟩
  | ecyl c =>
    obtain ⟨-, h0, h1, -⟩ := hb
    refine ⟨ell c.body.c0 + ell c.body.c1 + (0 + c.body.r0 * ell c.body.rv0 + c.body.r1 * ell c.body.rv1 + 0 * 0), ?_⟩
    rintro q ⟨m, ⟨a, b, ha, hb, hab, rfl⟩, s, t, h, e1, e2, e3⟩
    have h1 := sq1 (x := s) h0 (by nlinarith [sq_nonneg (s / c.body.r0), sq_nonneg (t / c.body.r1)])
    have h2 := sq1 (x := t) ‹0 < c.body.r1› (by nlinarith [sq_nonneg (s / c.body.r0), sq_nonneg (t / c.body.r1)])
    have z0 : |(0 : ℝ)| ≤ 0 := by simp
    have hx := lin3 h1 h2 z0 z0 (ell_x c.body.rv0) (ell_x c.body.rv1) z0
    have hy := lin3 h1 h2 z0 z0 (ell_y c.body.rv0) (ell_y c.body.rv1) z0
    have hz := lin3 h1 h2 z0 z0 (ell_z c.body.rv0) (ell_z c.body.rv1) z0
    exact ⟨bdd1 (m := (Spec.comb a b 0 0 c.body.c0 c.body.c1 c.body.c0 c.body.c0).x) ha hb hab (by simp [Spec.comb]) (ell_x _) (ell_x _) (by rw [e1]; convert hx using 2; ring),
      bdd1 (m := (Spec.comb a b 0 0 c.body.c0 c.body.c1 c.body.c0 c.body.c0).y) ha hb hab (by simp [Spec.comb]) (ell_y _) (ell_y _) (by rw [e2]; convert hy using 2; ring),
      bdd1 (m := (Spec.comb a b 0 0 c.body.c0 c.body.c1 c.body.c0 c.body.c0).z) ha hb hab (by simp [Spec.comb]) (ell_z _) (ell_z _) (by rw [e3]; convert hz using 2; ring)⟩
  | capsule c =>
    refine ⟨ell c.body.c0 + ell c.body.c1 + c.body.radius, ?_⟩
    rintro q ⟨m, ⟨a, b, ha, hb, hab, rfl⟩, hd⟩
    obtain ⟨hx, hy, hz⟩ := abs_ed _ _ hd
    exact ⟨bdd1 ha hb hab (by simp [Spec.comb]) (ell_x _) (ell_x _) hx, bdd1 ha hb hab (by simp [Spec.comb]) (ell_y _) (ell_y _) hy,
      bdd1 ha hb hab (by simp [Spec.comb]) (ell_z _) (ell_z _) hz⟩
  | cone c =>
    refine ⟨ell c.body.center + ell c.body.vert + c.body.radius, ?_⟩
    rintro q ⟨a, b, ha, hb', hab, -, hd⟩
    obtain ⟨hx, hy, hz⟩ := abs_ed _ _ (hd.trans (show a * c.body.radius ≤ c.body.radius by nlinarith [hb.1]))
    exact ⟨bdd1 ha hb' hab (by simp [Spec.comb]) (ell_x _) (ell_x _) hx, bdd1 ha hb' hab (by simp [Spec.comb]) (ell_y _) (ell_y _) hy,
      bdd1 ha hb' hab (by simp [Spec.comb]) (ell_z _) (ell_z _) hz⟩
  | ph q => exact absurd rfl (hp q)

private theorem body_mass {τ : ℝ} (hτ : 0 ≤ τ) (hτ' : τ ≤ 1/4) (b : Body) (hb : Spec.ProperBody τ b) (hp : ∀ q, b ≠ .ph q) :
    Spec.IsVolume (Spec.solid b) b.volume ∧ Spec.IsCentroid (Spec.solid b) b.barycenter ∧
    (∀ ρ, ∃ I, b.baryInertia τ ρ = some I ∧ Spec.IsInertia (Spec.solid b) ρ b.barycenter I) ∧
    (∀ m, ∃ I, b.baryInertiaMass τ m = some I ∧ Spec.IsInertia (Spec.solid b) (m / b.volume) b.barycenter I) := by
  cases b with
  | box b =>
    obtain ⟨h, h'⟩ := C56_box b ((Mat3.orth_iff _).1 hb.1.1) hb.2.1 hb.2.2.1 hb.2.2.2
    exact ⟨h.vol, h.cen, fun ρ => ⟨_, rfl, h.ine ρ⟩, fun m => ⟨_, rfl, h' m⟩⟩
  | sphere s =>
    obtain ⟨h, h'⟩ := C56_sphere s.body hb
    exact ⟨h.vol, h.cen, fun ρ => ⟨_, rfl, h.ine ρ⟩, fun m => ⟨_, rfl, h' m⟩⟩
  | ellips e =>
    obtain ⟨h, h'⟩ := C56_ellips e.body ((Mat3.orth_iff _).1 hb.1.1) hb.2.1 hb.2.2.1 hb.2.2.2
    exact ⟨h.vol, h.cen, fun ρ => ⟨_, rfl, h.ine ρ⟩, fun m => ⟨_, rfl, h' m⟩⟩
  | cyl c =>
    have hv := C56_cyl_volume c.body hb.1 (by linarith [hb.2])
    have hi := C56_cyl_inertia hτ hτ' c.body hb.1 hb.2
    exact ⟨hv.1, hv.2, fun ρ => (hi ρ).1, fun m => (hi m).2⟩
  | ecyl c =>
    obtain ⟨h, h'⟩ := C56_ecyl c.body hb.1 hb.2.1 hb.2.2.1 (not_tol hτ hb.2.2.2.1) hτ
    exact ⟨h.vol, h.cen, fun ρ => ⟨_, rfl, h.ine ρ⟩, fun m => ⟨_, rfl, h' m⟩⟩
  | capsule c =>
    have hv := C56_capsule_volume c.body hb.1 (by linarith [hb.2])
    have hi := C56_capsule_inertia hτ hτ' c.body hb.1 hb.2
    exact ⟨hv.1, hv.2, fun ρ => (hi ρ).1, fun m => (hi m).2⟩
  | cone c =>
    have hv := C56_cone_volume c.body hb.1 (by linarith [hb.2])
    have hi := C56_cone_inertia hτ hτ' c.body hb.1 hb.2
    exact ⟨hv.1, hv.2, fun ρ => (hi ρ).1, fun m => (hi m).2⟩
  | ph q => exact absurd rfl (hp q)

/-- **C62** (`zShape3DVolume`, `zShape3DBarycenter`, `zShape3DBaryInertia`, `zShape3DBaryInertiaMass`,
`zShape3DInertia`, `zShape3DInertiaMass`), every type but the polyhedron (for which see C40 and C49): the volume,
the centroid, and the inertia tensors of the solid, about its centroid and about the origin, for a density and for
a mass. -/
theorem C62_mass {τ : ℝ} (hτ : 0 ≤ τ) (hτ' : τ ≤ 1/4) (b : Body) (hb : Spec.ProperBody τ b) (hp : ∀ q, b ≠ .ph q) :
    Spec.IsVolume (Spec.solid b) b.volume ∧ Spec.IsCentroid (Spec.solid b) b.barycenter ∧
    (∀ ρ, ∃ I, b.baryInertia τ ρ = some I ∧ Spec.IsInertia (Spec.solid b) ρ b.barycenter I) ∧
    (∀ m, ∃ I, b.baryInertiaMass τ m = some I ∧ Spec.IsInertia (Spec.solid b) (m / b.volume) b.barycenter I) ∧
    (∀ ρ, ∃ I, b.inertia τ ρ = some I ∧ Spec.IsInertia (Spec.solid b) ρ .zero I) ∧
    (∀ m, ∃ I, b.inertiaMass τ m = some I ∧ Spec.IsInertia (Spec.solid b) (m / b.volume) .zero I) := by
  obtain ⟨h1, h2, h3, h4⟩ := body_mass hτ hτ' b hb hp
  obtain ⟨M, hM⟩ := solid_bdd hb hp
  have hv : b.volume ≠ 0 := by rw [← h1]; exact h2.1
  refine ⟨h1, h2, h3, h4, fun ρ => ?_, fun m => ?_⟩
  · obtain ⟨I, e, hI⟩ := h4 (ρ * b.volume)
    rw [mul_div_cancel_right₀ _ hv] at hI
    exact ⟨_, by rw [Body.inertia, e]; rfl, parallel_axis hM h1 h2 hI⟩
  · obtain ⟨I, e, hI⟩ := h4 m
    have := parallel_axis hM h1 h2 hI
    rw [div_mul_cancel₀ _ hv] at this
    exact ⟨_, by rw [Body.inertiaMass, e]; rfl, this⟩

/-! ## Rigid motions and mirror images -/

private noncomputable def height (t : Vec3 ℝ × Vec3 ℝ × Vec3 ℝ) (p : Vec3 ℝ) : ℝ :=
  (p.sub t.1).inner ((t.2.1.sub t.1).outer (t.2.2.sub t.1))

private theorem behind_pts (ph : PH ℝ) : Spec.behindAll ph = {x | ∀ t ∈ Spec.facePts ph, height t x ≤ 0} := by
  ext x
  simp only [Spec.behindAll, Spec.facePts, Set.mem_setOf_eq, List.forall_mem_map]
  rfl

private theorem behind_moved {ph ph' : PH ℝ} {g gi : Vec3 ℝ → Vec3 ℝ} {h : Vec3 ℝ × Vec3 ℝ × Vec3 ℝ → Vec3 ℝ × Vec3 ℝ × Vec3 ℝ}
    (hf : Spec.facePts ph' = (Spec.facePts ph).map h) (hg : ∀ p, g (gi p) = p) (hh : ∀ t p, height (h t) (g p) = height t p) :
    Spec.behindAll ph' = g '' Spec.behindAll ph := by
  rw [behind_pts, behind_pts, hf]
  ext x
  simp only [List.forall_mem_map, Set.mem_setOf_eq, Set.mem_image]
  constructor
  · intro hx
    refine ⟨gi x, fun t ht => ?_, hg x⟩
    rw [← hh, hg]; exact hx t ht
  · rintro ⟨p, hp, rfl⟩ t ht
    rw [hh]; exact hp t ht

private theorem pts_of_idx {src dest : PH ℝ} {vert : ℕ → Vec3 ℝ} {g : Vec3 ℝ → Vec3 ℝ} (τ : ℝ) (hv : Spec.Valid src)
    (hf : Spec.faceIdx dest = Spec.faceIdx src) (hg : ∀ i < src.nv, vert i = g (src.vert i)) :
    (dest.face.map fun f => PH.mkFace τ vert f.i0 f.i1 f.i2).map (fun f => (vert f.i0, vert f.i1, vert f.i2)) =
      (Spec.facePts src).map fun t => (g t.1, g t.2.1, g t.2.2) := by
  have h1 : (dest.face.map fun f => PH.mkFace τ vert f.i0 f.i1 f.i2).map (fun f => (vert f.i0, vert f.i1, vert f.i2)) =
      (Spec.faceIdx dest).map fun i => (vert i.1, vert i.2.1, vert i.2.2) := by
    simp only [Spec.faceIdx, List.map_map]; rfl
  rw [h1, hf]
  simp only [Spec.faceIdx, Spec.facePts, List.map_map]
  refine List.map_congr_left fun f hm => ?_
  obtain ⟨a, b, c⟩ := hv f hm
  simp only [Function.comp, hg _ a, hg _ b, hg _ c]

private theorem rot_outer {M : Mat3 ℝ} (h : M.IsRot) (a b : Vec3 ℝ) : M.mulVec (a.outer b) = (M.mulVec a).outer (M.mulVec b) := by
  have : (M.mulVec a).outer (M.mulVec b) = M.adj.t.mulVec (a.outer b) := by vring
  rw [this, h.adj_eq]; vring

/-- The bodies have the same type, and two polyhedra have the same numbers of vertices and the same faces. -/
def Spec.SameMold : Body → Body → Prop
  | .box _, .box _ | .sphere _, .sphere _ | .ellips _, .ellips _ | .cyl _, .cyl _ | .ecyl _, .ecyl _ |
    .capsule _, .capsule _ | .cone _, .cone _ => True
  | .ph s, .ph d => Spec.Valid s ∧ d.nv = s.nv ∧ Spec.faceIdx d = Spec.faceIdx s
  | _, _ => False

/-- **C62** (`zShape3DXform`, `zShape3DXformInv`): with a destination of the same mold, as left by `zShape3DClone`,
the result occupies exactly the transformed points; the inverse transformation occupies the points the frame maps
into the source. -/
theorem C62_xform (τ : ℝ) (f : Frame3 ℝ) (hf : f.att.IsRot) (src dest : Body) (h : Spec.SameMold src dest) :
    (∃ b, src.xform τ f dest = some b ∧ Spec.solid b = f.xform '' Spec.solid src) ∧
    (∃ b, src.xformInv τ f dest = some b ∧ Spec.solid b = {q | f.xform q ∈ Spec.solid src}) := by
  obtain ⟨a1, a2, a3, a4, a5, a6, a7⟩ := C58_xform f hf
  obtain ⟨b1, b2, b3, b4, b5, b6, b7⟩ := C58_xformInv f hf
  have im : ∀ S : Set (Vec3 ℝ), f.xformInv '' S = {q | f.xform q ∈ S} := by
    intro S; ext q; constructor
    · rintro ⟨p, hp, rfl⟩; show f.xform (f.xformInv p) ∈ S; rwa [xform_xformInv' f hf]
    · intro hq; exact ⟨_, hq, xformInv_xform' f hf q⟩
  cases src with
  | box b =>
    cases dest <;> first | exact h.elim | exact ⟨⟨_, rfl, a5 _⟩, ⟨_, rfl, b5 _⟩⟩
  | sphere s =>
    cases dest <;> first | exact h.elim | exact ⟨⟨_, rfl, a1 _⟩, ⟨_, rfl, b1 _⟩⟩
  | ellips e =>
    cases dest <;> first | exact h.elim | exact ⟨⟨_, rfl, a6 _⟩, ⟨_, rfl, b6 _⟩⟩
  | cyl c =>
    cases dest <;> first | exact h.elim | exact ⟨⟨_, rfl, a2 _⟩, ⟨_, rfl, b2 _⟩⟩
  | ecyl c =>
    cases dest <;> first | exact h.elim | exact ⟨⟨_, rfl, a7 _⟩, ⟨_, rfl, b7 _⟩⟩
  | capsule c =>
    cases dest <;> first | exact h.elim | exact ⟨⟨_, rfl, a3 _⟩, ⟨_, rfl, b3 _⟩⟩
  | cone c =>
    cases dest <;> first | exact h.elim | exact ⟨⟨_, rfl, a4 _⟩, ⟨_, rfl, b4 _⟩⟩
  | ph s =>
    cases dest with
    | ph d =>
      obtain ⟨hv, hn, hi⟩ := h
      obtain ⟨c1, c2, c3, c4, c5, c6⟩ := hf.cols
      obtain ⟨r1, r2, r3, r4, r5, r6⟩ := hf.rows
      have hh : ∀ t p, height (f.xform t.1, f.xform t.2.1, f.xform t.2.2) (f.xform p) = height t p := by
        intro t p
        have hs : ∀ u v, (f.xform u).sub (f.xform v) = f.att.mulVec (u.sub v) := by
          intro u v; ext <;> simp only [zeo] <;> ring
        simp only [height, hs]
        rw [← rot_outer hf]
        generalize p.sub t.1 = u
        generalize (t.2.1.sub t.1).outer (t.2.2.sub t.1) = v
        simp only [zeo]; grind
      refine ⟨⟨_, rfl, ?_⟩, ⟨_, rfl, ?_⟩⟩
      · refine behind_moved (gi := f.xformInv) (pts_of_idx (g := f.xform) τ hv hi fun i hi => ?_) (xform_xformInv' f hf) hh
        exact if_pos (hn ▸ hi)
      · rw [← im]
        refine behind_moved (gi := f.xform) (pts_of_idx (g := f.xformInv) τ hv hi fun i hi => ?_) (xformInv_xform' f hf) fun t p => ?_
        · exact if_pos (hn ▸ hi)
        · rw [← hh]
          simp only [xform_xformInv' f hf]
    | _ => exact h.elim

/-- A destination of another type is written through a pointer of the wrong type. -/
theorem C62_xform_type (τ : ℝ) (f : Frame3 ℝ) (b : Box3 ℝ) (s : WithDiv (Sphere3 ℝ)) :
    (Body.box b).xform τ f (.sphere s) = none ∧ (Body.sphere s).xformInv τ f (.box b) = none := ⟨rfl, rfl⟩

/-- **C62** (`zShape3DMirror`): the mirror image of a proper shape occupies exactly the reflected points. -/
theorem C62_mirror {τ : ℝ} (hτ : 0 ≤ τ) (hτ' : τ ≤ 1/4) (junk : Mat3 ℝ) (axis : Fin 3) (b : Body) (hb : Spec.ProperBody τ b)
    (hv : ∀ q, b = .ph q → Spec.Valid q) :
    Spec.solid (b.mirror τ junk axis) = Spec.reflect axis '' Spec.solid b := by
  obtain ⟨a1, a2, a3, a4, a5, a6⟩ := C58_mirror axis
  cases b with
  | box b =>
    obtain ⟨h1, h2, h3, h4, h5, h6⟩ := hb.1.cols
    refine (C58_mirror_box hτ (by nlinarith) b junk axis ?_ ?_ ?_ hb.2.1.le hb.2.2.1.le hb.2.2.2.le).1 <;>
    simp only [zeo] at * <;> linarith
  | sphere s => exact a1 _
  | ellips e => exact a5 _
  | cyl c => exact a2 _
  | ecyl c => exact a6 _
  | capsule c => exact a3 _
  | cone c => exact a4 _
  | ph q =>
    have hv := hv q rfl
    refine behind_moved (gi := Spec.reflect axis) (h := fun t => (Spec.reflect axis t.1, Spec.reflect axis t.2.2, Spec.reflect axis t.2.1)) ?_ ?_ ?_
    · simp only [Spec.facePts, PH.mirror, List.map_map]
      refine List.map_congr_left fun f hm => ?_
      obtain ⟨a, b, c⟩ := hv f hm
      have hfl : ∀ v : Vec3 ℝ, PH.flipE v axis = Spec.reflect axis v := by
        intro v; fin_cases axis <;> simp [PH.flipE, Spec.reflect, Vec3.setE, Vec3.e]
      simp only [Function.comp, PH.mkFace, a, b, c, if_true, hfl]
    · intro p; fin_cases axis <;> simp [Spec.reflect]
    · intro t p
      fin_cases axis <;> simp [height, Spec.reflect, Vec3.sub, Vec3.inner, Vec3.outer] <;> ring

/-! ## Vertices of compounds -/

private theorem contig_some {q : PH ℝ} {p : Vec3 ℝ} {v : Vec3 ℝ} {d : ℝ} (h : (Body.ph q).contigVert p = some (some (v, d))) :
    v ∈ phVerts q ∧ d = Spec.ed p v ∧ ∀ w ∈ phVerts q, d ≤ Spec.ed p w := by
  simp only [Body.contigVert, Option.some.injEq, Option.map_eq_some_iff, Prod.exists, Prod.mk.injEq] at h
  obtain ⟨i, d', h1, rfl, rfl⟩ := h
  obtain ⟨a, b, c⟩ := (C55_contigVert q p).2 i d' h1
  simp only [phVerts, List.mem_map, List.mem_range]
  refine ⟨⟨i, a, rfl⟩, b, ?_⟩
  rintro w ⟨j, hj, rfl⟩
  exact c j hj

private theorem contig_fold (p : Vec3 ℝ) (l : List Body) : ∀ s r, l.foldl (contigStep p) (some s) = some r →
    (∀ b ∈ l, ∃ q, b = .ph q) ∧ (r = s ∨ ∃ q, Body.ph q ∈ l ∧ r.1 ∈ phVerts q ∧ r.2 = Spec.ed p r.1) ∧ r.2 ≤ s.2 ∧
    ∀ q, Body.ph q ∈ l → ∀ w ∈ phVerts q, r.2 ≤ Spec.ed p w := by
  have hnone : ∀ l : List Body, l.foldl (contigStep p) none = none := by
    intro l; induction l with
    | nil => rfl
    | cons b l ih => simp only [List.foldl_cons, contigStep, ih]
  induction l with
  | nil => intro s r h; cases h; simp
  | cons b l ih =>
    intro s r h
    rw [List.foldl_cons] at h
    cases b with
    | ph q =>
      rcases hc : (Body.ph q).contigVert p with _ | _ | ⟨v, d⟩
      · simp [Body.contigVert] at hc
      · simp only [contigStep, hc] at h
        obtain ⟨h1, h2, h3, h4⟩ := ih s r h
        refine ⟨?_, ?_, h3, ?_⟩
        · intro b hb; rcases List.mem_cons.1 hb with rfl | hb; exacts [⟨q, rfl⟩, h1 b hb]
        · rcases h2 with h2 | ⟨q', a, b⟩; exacts [Or.inl h2, Or.inr ⟨q', by simp [a], b⟩]
        · intro q' hq' w hw
          rcases List.mem_cons.1 hq' with e | hq'
          · obtain rfl : q' = q := by injection e
            have hn : q'.contigVert p = none := by simpa [Body.contigVert] using hc
            rw [phVerts, ((C55_contigVert q' p).1.1 hn)] at hw
            simp at hw
          · exact h4 q' hq' w hw
      · obtain ⟨c1, c2, c3⟩ := contig_some hc
        simp only [contigStep, hc] at h
        have fin : ∀ s', l.foldl (contigStep p) (some s') = some r → s'.2 ≤ s.2 → s'.2 ≤ d → (s' = s ∨ s' = (v, d)) →
            (∀ b ∈ Body.ph q :: l, ∃ q, b = .ph q) ∧
            (r = s ∨ ∃ q', Body.ph q' ∈ Body.ph q :: l ∧ r.1 ∈ phVerts q' ∧ r.2 = Spec.ed p r.1) ∧ r.2 ≤ s.2 ∧
            ∀ q', Body.ph q' ∈ Body.ph q :: l → ∀ w ∈ phVerts q', r.2 ≤ Spec.ed p w := by
          intro s' h' hs hd he
          obtain ⟨h1, h2, h3, h4⟩ := ih s' r h'
          refine ⟨?_, ?_, h3.trans hs, ?_⟩
          · intro b hb; rcases List.mem_cons.1 hb with rfl | hb; exacts [⟨q, rfl⟩, h1 b hb]
          · rcases h2 with h2 | ⟨q', a, b⟩
            · subst h2
              rcases he with rfl | rfl
              · exact Or.inl rfl
              · exact Or.inr ⟨q, by simp, c1, c2⟩
            · exact Or.inr ⟨q', by simp [a], b⟩
          · intro q' hq' w hw
            rcases List.mem_cons.1 hq' with e | hq'
            · cases e; exact (h3.trans hd).trans (c3 w hw)
            · exact h4 q' hq' w hw
        by_cases hlt : d < s.2
        · rw [if_pos hlt] at h
          exact fin (v, d) h hlt.le le_rfl (Or.inr rfl)
        · rw [if_neg hlt] at h
          exact fin s h le_rfl (not_lt.1 hlt) (Or.inl rfl)
    | _ => simp only [contigStep, Body.contigVert, hnone] at h; cases h

/-- **C62** (`zMultiShape3DContigVert`, `zShape3DListContigVert`): the result is a vertex of one of the shapes, with
its distance, and no vertex of any shape is nearer.  All shapes are polyhedra then. -/
theorem C62_contigVert (l : List Body) (p v : Vec3 ℝ) (d : ℝ) (h : multiContigVert l p = some (v, d)) :
    (∀ b ∈ l, ∃ q, b = .ph q) ∧ (∃ q, Body.ph q ∈ l ∧ v ∈ phVerts q) ∧ d = Spec.ed p v ∧
    ∀ q, Body.ph q ∈ l → ∀ w ∈ phVerts q, d ≤ Spec.ed p w := by
  have hnone : ∀ l : List Body, l.foldl (contigStep p) none = none := by
    intro l; induction l with
    | nil => rfl
    | cons b l ih => simp only [List.foldl_cons, contigStep, ih]
  cases l with
  | nil => cases h
  | cons b l =>
    simp only [multiContigVert] at h
    rcases hc : b.contigVert p with _ | _ | ⟨v', d'⟩
    · rw [hc] at h; simp only [Option.join_none, hnone] at h; cases h
    · rw [hc] at h; simp only [Option.join_some, hnone] at h; cases h
    · rw [hc] at h
      simp only [Option.join_some] at h
      cases b with
      | ph q =>
        obtain ⟨c1, c2, c3⟩ := contig_some hc
        obtain ⟨h1, h2, h3, h4⟩ := contig_fold p l _ _ h
        refine ⟨?_, ?_, ?_, ?_⟩
        · intro b hb; rcases List.mem_cons.1 hb with rfl | hb; exacts [⟨q, rfl⟩, h1 b hb]
        · rcases h2 with h2 | ⟨q', a, b, -⟩
          · cases h2; exact ⟨q, by simp, c1⟩
          · exact ⟨q', by simp [a], b⟩
        · rcases h2 with h2 | ⟨q', a, b, e⟩
          · cases h2; exact c2
          · exact e
        · intro q' hq' w hw
          rcases List.mem_cons.1 hq' with e | hq'
          · cases e; exact h3.trans (c3 w hw)
          · exact h4 q' hq' w hw
      | _ => cases hc

/-- It succeeds when all shapes are polyhedra with vertices. -/
theorem C62_contigVert_defined (l : List Body) (hl : l ≠ []) (p : Vec3 ℝ) (h : ∀ b ∈ l, ∃ q, b = .ph q ∧ q.nv ≠ 0) :
    ∃ r, multiContigVert l p = some r := by
  have hs : ∀ b ∈ l, ∃ r, b.contigVert p = some (some r) := by
    intro b hb
    obtain ⟨q, rfl, hq⟩ := h b hb
    rcases hc : q.contigVert p with _ | r
    · exact absurd ((C55_contigVert q p).1.1 hc) hq
    · exact ⟨_, by simp only [Body.contigVert, hc]; rfl⟩
  have hf : ∀ (l : List Body), (∀ b ∈ l, ∃ r, b.contigVert p = some (some r)) → ∀ s, ∃ r, l.foldl (contigStep p) (some s) = some r := by
    intro l
    induction l with
    | nil => intro _ s; exact ⟨s, rfl⟩
    | cons b l ih =>
      intro h s
      obtain ⟨r, hr⟩ := h b (by simp)
      rw [List.foldl_cons]
      simp only [contigStep, hr]
      split_ifs
      · exact ih (fun b hb => h b (by simp [hb])) _
      · exact ih (fun b hb => h b (by simp [hb])) _
  cases l with
  | nil => exact absurd rfl hl
  | cons b l =>
    obtain ⟨r, hr⟩ := hs b (by simp)
    simp only [multiContigVert, hr, Option.join_some]
    exact hf l (fun b hb => hs b (by simp [hb])) r

/-- **C62** (`zMultiShape3DVertData`, `zMultiShape3DBoundingBall`): the vertices of all shapes, polyhedra as they
are and the others after conversion, lie in the ball found, up to the tolerance. -/
theorem C62_boundingBall (toPH : Body → Option (PH ℝ)) (τ : ℝ) (fuel : ℕ) (junk : Ball3) (l : List Body) (b : Ball3)
    (h : multiBoundingBall toPH τ fuel junk l = some (.ok b false)) :
    (∀ q, Body.ph q ∈ l → ∀ v ∈ phVerts q, Spec.ed b.ball.center v < b.ball.radius + τ) ∧
    (∀ s ∈ l, (∀ q, s ≠ .ph q) → ∃ q, toPH s = some q ∧ ∀ v ∈ phVerts q, Spec.ed b.ball.center v < b.ball.radius + τ) := by
  unfold multiBoundingBall at h
  rw [Option.map_eq_some_iff] at h
  obtain ⟨vs, hvs, hb⟩ := h
  have hrun : vs.foldl (fun d v => (d.add v).2) Data.initList = Data.run Data.initList (vs.map .add) := by
    rw [Data.run, List.foldl_map]; rfl
  rw [hrun] at hb
  have had : ∀ vs : List (Vec3 ℝ), Data.added (vs.map Data.Op.add) = vs := by
    intro vs; induction vs with
    | nil => rfl
    | cons v vs ih => simp only [List.map_cons, Data.added, ih]
  have hshow := (C35_list (vs.map Data.Op.add)).1
  rw [had] at hshow
  have key := C39_bounds τ fuel _ (Data.initList_wf.run _) vs hshow junk b hb
  have hmem : ∀ l vs, multiVerts toPH l = some vs →
      (∀ q, Body.ph q ∈ l → ∀ v ∈ phVerts q, v ∈ vs) ∧
      (∀ s ∈ l, (∀ q, s ≠ .ph q) → ∃ q, toPH s = some q ∧ ∀ v ∈ phVerts q, v ∈ vs) := by
    intro l
    induction l with
    | nil => intro vs _; simp
    | cons s l ih =>
      intro vs h
      have hsplit : ∃ us ws, (∀ q, s = .ph q → us = phVerts q) ∧ ((∀ q, s ≠ .ph q) → ∃ q, toPH s = some q ∧ phVerts q = us) ∧
          multiVerts toPH l = some ws ∧ us ++ ws = vs := by
        cases s with
        | ph q =>
          simp only [multiVerts, Option.bind_eq_bind, Option.bind_eq_some_iff, Option.pure_def, Option.some.injEq] at h
          obtain ⟨us, rfl, ws, hw, rfl⟩ := h
          exact ⟨_, ws, fun q e => by cases e; rfl, fun hn => absurd rfl (hn q), hw, rfl⟩
        | _ =>
          simp only [multiVerts, Option.bind_eq_bind, Option.bind_eq_some_iff, Option.pure_def, Option.some.injEq] at h
          obtain ⟨us, hu, ws, hw, rfl⟩ := h
          exact ⟨us, ws, fun q e => (nomatch e), fun hn => by simpa [Option.map_eq_some_iff] using hu, hw, rfl⟩
      obtain ⟨us, ws, hu1, hu2, hw, rfl⟩ := hsplit
      obtain ⟨i1, i2⟩ := ih ws hw
      constructor
      · intro q hq v hv
        rcases List.mem_cons.1 hq with rfl | hq
        · rw [hu1 q rfl]; simp [hv]
        · simp [i1 q hq v hv]
      · intro s' hs' hne
        rcases List.mem_cons.1 hs' with rfl | hs'
        · obtain ⟨q, e, rfl⟩ := hu2 hne
          exact ⟨q, e, fun v hv => by simp [hv]⟩
        · obtain ⟨q, e, hq⟩ := i2 s' hs' hne
          exact ⟨q, e, fun v hv => by simp [hq v hv]⟩
  obtain ⟨m1, m2⟩ := hmem l vs hvs
  refine ⟨fun q hq v hv => key v (m1 q hq v hv), fun s hs hne => ?_⟩
  obtain ⟨q, e, hq⟩ := m2 s hs hne
  exact ⟨q, e, fun v hv => key v (hq v hv)⟩

/-! ## Filling an octree -/

private theorem grid_mem {B : AABox3 ℝ} {res : ℝ} {p : Vec3 ℝ} : p ∈ gridPoints B res ↔
    ∃ i j k : ℕ, i ≤ ⌊(B.max.x - B.min.x) / (res * (1/2))⌋₊ ∧ j ≤ ⌊(B.max.y - B.min.y) / (res * (1/2))⌋₊ ∧
      k ≤ ⌊(B.max.z - B.min.z) / (res * (1/2))⌋₊ ∧
      p = ⟨B.min.x + i * (res * (1/2)), B.min.y + j * (res * (1/2)), B.min.z + k * (res * (1/2))⟩ := by
  simp only [gridPoints, List.mem_flatMap, List.mem_map, List.mem_range, Nat.lt_succ_iff]
  constructor
  · rintro ⟨k, hk, j, hj, i, hi, rfl⟩; exact ⟨i, j, k, hi, hj, hk, rfl⟩
  · rintro ⟨i, j, k, hi, hj, hk, rfl⟩; exact ⟨k, hk, j, hj, i, hi, rfl⟩

/-- **C62** (`zShape3DPutInOctree`, the test points): they lie in the region of the octree, and each point of the
region has a test point at most half the resolution below it in each coordinate. -/
theorem C62_grid (B : AABox3 ℝ) (hB : Oct.Sorted B) {res : ℝ} (hr : 0 < res) :
    (∀ p ∈ gridPoints B res, B.min.x ≤ p.x ∧ p.x ≤ B.max.x ∧ B.min.y ≤ p.y ∧ p.y ≤ B.max.y ∧ B.min.z ≤ p.z ∧ p.z ≤ B.max.z) ∧
    (∀ q : Vec3 ℝ, B.min.x ≤ q.x → q.x ≤ B.max.x → B.min.y ≤ q.y → q.y ≤ B.max.y → B.min.z ≤ q.z → q.z ≤ B.max.z →
      ∃ p ∈ gridPoints B res, (p.x ≤ q.x ∧ q.x < p.x + res / 2) ∧ (p.y ≤ q.y ∧ q.y < p.y + res / 2) ∧
        (p.z ≤ q.z ∧ q.z < p.z + res / 2)) := by
  have hd : 0 < res * (1/2) := by linarith
  have up : ∀ {a b : ℝ} {i : ℕ}, a ≤ b → i ≤ ⌊(b - a) / (res * (1/2))⌋₊ → a ≤ a + i * (res * (1/2)) ∧ a + i * (res * (1/2)) ≤ b := by
    intro a b i hab hi
    have h0 : 0 ≤ (b - a) / (res * (1/2)) := div_nonneg (by linarith) hd.le
    have := (Nat.le_floor_iff h0).1 hi
    rw [le_div_iff₀ hd] at this
    exact ⟨by have := mul_nonneg (Nat.cast_nonneg (α := ℝ) i) hd.le; linarith, by linarith⟩
  have dn : ∀ {a b x : ℝ}, a ≤ x → x ≤ b → ∃ i : ℕ, i ≤ ⌊(b - a) / (res * (1/2))⌋₊ ∧ a + i * (res * (1/2)) ≤ x ∧ x < a + i * (res * (1/2)) + res / 2 := by
    intro a b x hx hb
    have h0 : 0 ≤ (x - a) / (res * (1/2)) := div_nonneg (by linarith) hd.le
    refine ⟨⌊(x - a) / (res * (1/2))⌋₊, Nat.floor_le_floor (by gcongr), ?_, ?_⟩
    · have := Nat.floor_le h0
      rw [le_div_iff₀ hd] at this; linarith
    · have := Nat.lt_floor_add_one ((x - a) / (res * (1/2)))
      rw [div_lt_iff₀ hd] at this; linarith
  obtain ⟨hx, hy, hz⟩ := hB
  constructor
  · intro p hp
    obtain ⟨i, j, k, hi, hj, hk, rfl⟩ := grid_mem.1 hp
    exact ⟨(up hx hi).1, (up hx hi).2, (up hy hj).1, (up hy hj).2, (up hz hk).1, (up hz hk).2⟩
  · intro q x0 x1 y0 y1 z0 z1
    obtain ⟨i, hi, a⟩ := dn x0 x1
    obtain ⟨j, hj, b⟩ := dn y0 y1
    obtain ⟨k, hk, c⟩ := dn z0 z1
    exact ⟨_, grid_mem.2 ⟨i, j, k, hi, hj, hk, rfl⟩, a, b, c⟩

open Classical in
private theorem fill_reach {τ : ℝ} (hτ : 0 ≤ τ) {B : AABox3 ℝ} {res : ℝ} {fuel : ℕ} {inside : Vec3 ℝ → Prop} {n : ℕ}
    (hn : ∀ t ps, Oct.Reach τ B res t ps → ∀ p : Vec3 ℝ,
      (B.min.x - τ < p.x ∧ p.x ≤ B.max.x + τ) ∧ (B.min.y - τ < p.y ∧ p.y ≤ B.max.y + τ) ∧
        (B.min.z - τ < p.z ∧ p.z ≤ B.max.z + τ) → ∀ fuel, n < fuel → ∃ t', Oct.addPoint τ res fuel p t = .added t')
    (hf : n < fuel) (ps : List (Vec3 ℝ)) : ∀ t qs, Oct.Reach τ B res t qs →
    (∀ p ∈ ps, (B.min.x - τ < p.x ∧ p.x ≤ B.max.x + τ) ∧ (B.min.y - τ < p.y ∧ p.y ≤ B.max.y + τ) ∧
        (B.min.z - τ < p.z ∧ p.z ≤ B.max.z + τ)) →
    ∃ t', fillOctree τ res fuel inside ps t = some t' ∧ Oct.Reach τ B res t' (qs ++ ps.filter fun p => inside p) := by
  induction ps with
  | nil => intro t qs h _; exact ⟨t, rfl, by simpa using h⟩
  | cons p ps ih =>
    intro t qs h hp
    by_cases hi : inside p
    · obtain ⟨t', ht'⟩ := hn t qs h p (hp p (by simp)) fuel hf
      obtain ⟨t'', e, hr⟩ := ih t' _ (.add fuel p h ht') (fun p hm => hp p (by simp [hm]))
      refine ⟨t'', ?_, ?_⟩
      · rw [fillOctree, if_pos hi]; simp only [ht', e]
      · simpa [hi] using hr
    · obtain ⟨t'', e, hr⟩ := ih t _ h (fun p hm => hp p (by simp [hm]))
      refine ⟨t'', ?_, ?_⟩
      · rw [fillOctree, if_neg hi, e]
      · simpa [hi] using hr

open Classical in
/-- **C62** (`zShape3DPutInOctree`): with a positive tolerance, the octree holds, besides the points it held before,
exactly the test points that pass the inside test of the shape; the recursion ends.  Missing: the octants are then
unified, which keeps the points if no octant is thin (C34_unify_keeps_partial) and may lose them otherwise. -/
theorem C62_octree_partial {τ : ℝ} (hτ : 0 < τ) (junk : Mat3 ℝ) (b : Body) {B : AABox3 ℝ} (hB : Oct.Sorted B) {res : ℝ} (hr : 0 < res)
    {t : Oct ℝ} {qs : List (Vec3 ℝ)} (h : Oct.Reach τ B res t qs) :
    ∃ n, ∀ fuel, n < fuel → ∃ t', b.putInOctree τ res fuel junk B t = some (Oct.unifyOctant t') ∧
      Oct.bag t' = (qs : Multiset (Vec3 ℝ)) + ((gridPoints B res).filter fun p => b.pointIsInside τ junk p 0) ∧
      (t'.NoThin → Oct.bag (Oct.unifyOctant t') = Oct.bag t') := by
  obtain ⟨n, hn⟩ := C31_budget hτ.le B hr
  refine ⟨n, fun fuel hf => ?_⟩
  obtain ⟨t', e, hR⟩ := fill_reach (inside := fun p => b.pointIsInside τ junk p 0) hτ.le hn hf (gridPoints B res) t qs h fun p hp => by
    obtain ⟨a1, a2, a3, a4, a5, a6⟩ := (C62_grid B hB hr).1 p hp
    exact ⟨⟨by linarith, by linarith⟩, ⟨by linarith, by linarith⟩, ⟨by linarith, by linarith⟩⟩
  refine ⟨t', by rw [Body.putInOctree, e]; rfl, ?_, fun hN => C34_unify_keeps_partial t' hN⟩
  rw [C31_points hτ.le hR, ← Multiset.coe_add]

/-! ## The hypotheses can be met -/

private noncomputable def ebox : Box3 ℝ := ⟨⟨2,2,2⟩, ⟨⟨5,0,0⟩, .ident⟩⟩

private theorem ident_rot : (Mat3.ident : Mat3 ℝ).IsRot := by
  constructor
  · ext i j; fin_cases i <;> fin_cases j <;> simp [Mat3.ident, Mat3.toMatrix, Matrix.mul_apply, Fin.sum_univ_three, Vec3.ex, Vec3.ey, Vec3.ez]
  · simp [Mat3.ident, Mat3.toMatrix, Matrix.det_fin_three, Vec3.ex, Vec3.ey, Vec3.ez]

private theorem wcyl_proper : Spec.ProperBody (1/1000) (.cyl ⟨wcyl, 32⟩) := by
  refine ⟨by norm_num [wcyl], ?_⟩
  have e : Spec.ed wcyl.c0 wcyl.c1 = 2 := by
    rw [Spec.ed, Real.sqrt_eq_iff_mul_self_eq_of_pos (by norm_num)]; norm_num [Spec.sqd, wcyl]
  show _ < Spec.ed wcyl.c0 wcyl.c1
  rw [e]; norm_num

private theorem ex_proper : ∀ b ∈ [Body.box ebox, .sphere ⟨wsph, 16⟩, .cyl ⟨wcyl, 32⟩], Spec.ProperBody (1/1000) b := by
  intro b hb
  simp only [List.mem_cons, List.not_mem_nil, or_false] at hb
  rcases hb with rfl | rfl | rfl
  · exact ⟨ident_rot, by norm_num [ebox], by norm_num [ebox], by norm_num [ebox]⟩
  · show 0 < wsph.radius; norm_num [wsph]
  · exact wcyl_proper

/-- A compound of a box, a sphere and a cylinder, asked for a point beside them. -/
example {solve : List ℝ → List ℂ} (hs : Spec.ExactSolver solve) (junk : Mat3 ℝ) :
    ∃ r c, multiClosest solve (1/1000) junk [.box ebox, .sphere ⟨wsph, 16⟩, .cyl ⟨wcyl, 32⟩] ⟨2,0,0⟩ = some (r, c) ∧
      Spec.IsNearest {q | ∃ b ∈ [Body.box ebox, .sphere ⟨wsph, 16⟩, .cyl ⟨wcyl, 32⟩], q ∈ Spec.solid b} ⟨2,0,0⟩ c ∧
      (r = Spec.ed ⟨2,0,0⟩ c ∨ r < 0 ∧ c = ⟨2,0,0⟩) := by
  refine C62_multi_closest_partial hs (by norm_num) (by norm_num) junk _ (by simp) ex_proper _ ?_
  intro b hb
  simp only [List.mem_cons, List.not_mem_nil, or_false] at hb
  rcases hb with rfl | rfl | rfl
  · trivial
  · trivial
  · rintro ⟨t, h1, h2, -⟩
    simp only [Spec.Perp, Spec.comb, wcyl] at h2
    norm_num at h2; linarith

example (junk : Mat3 ℝ) : ∀ m, 0 < m → multiInside (1/1000) junk [.box ebox, .sphere ⟨wsph, 16⟩, .cyl ⟨wcyl, 32⟩] ⟨0,0,1⟩ m := by
  intro m hm
  refine (C62_multi_inside_partial (by norm_num) (by norm_num) junk _ ex_proper ?_ ⟨0,0,1⟩).2 m hm ⟨.cyl ⟨wcyl, 32⟩, by simp, ?_⟩
  · intro b hb k
    simp only [List.mem_cons, List.not_mem_nil, or_false] at hb
    rcases hb with rfl | rfl | rfl <;> exact fun h => nomatch h
  · refine ⟨⟨0,0,1⟩, ⟨1/2, 1/2, by norm_num, by norm_num, by norm_num, by simp only [Spec.comb, wcyl]; ext <;> norm_num⟩, ?_, ?_⟩
    · simp [Spec.Perp]
    · rw [Spec.ed, Real.sqrt_le_left (by norm_num [wcyl])]; norm_num [Spec.sqd, wcyl]

example : ∃ I, (Body.cyl ⟨wcyl, 32⟩).inertia (1/1000) 7 = some I ∧ Spec.IsInertia (Spec.cylinder wcyl.c0 wcyl.c1 wcyl.radius) 7 .zero I :=
  (C62_mass (by norm_num) (by norm_num) _ wcyl_proper (fun q h => nomatch h)).2.2.2.2.1 7

example (f : Frame3 ℝ) (hf : f.att.IsRot) : ∃ b, (Body.cyl ⟨wcyl, 32⟩).xform (1/1000) f (.cyl ⟨wcyl, 8⟩) = some b ∧
    Spec.solid b = f.xform '' Spec.cylinder wcyl.c0 wcyl.c1 wcyl.radius :=
  (C62_xform (1/1000) f hf (.cyl ⟨wcyl, 32⟩) (.cyl ⟨wcyl, 8⟩) trivial).1

example (junk : Mat3 ℝ) : Spec.solid ((Body.box ebox).mirror (1/1000) junk 0) = Spec.reflect 0 '' Spec.obox ebox :=
  C62_mirror (by norm_num) (by norm_num) junk 0 (.box ebox) (ex_proper _ (by simp)) (fun q h => nomatch h)

private noncomputable def onePt (v : Vec3 ℝ) : PH ℝ := ⟨1, fun _ => v, []⟩

example : ∃ r, multiContigVert [.ph (onePt ⟨1,2,3⟩), .ph (onePt ⟨3,2,1⟩)] ⟨0,0,0⟩ = some r :=
  C62_contigVert_defined _ (by simp) _ fun b hb => by
    simp only [List.mem_cons, List.not_mem_nil, or_false] at hb
    rcases hb with rfl | rfl
    · exact ⟨_, rfl, by simp [onePt]⟩
    · exact ⟨_, rfl, by simp [onePt]⟩

example : ∃ n, ∀ fuel, n < fuel → ∃ t', (Body.cyl ⟨wcyl, 32⟩).putInOctree (1/1000) (1/10) fuel .ident ⟨⟨-1,-1,-1⟩, ⟨1,1,3⟩⟩
    (Oct.fresh ⟨⟨-1,-1,-1⟩, ⟨1,1,3⟩⟩) = some (Oct.unifyOctant t') := by
  have hB : Oct.Sorted (⟨⟨-1,-1,-1⟩, ⟨1,1,3⟩⟩ : AABox3 ℝ) := by norm_num [Oct.Sorted]
  obtain ⟨n, hn⟩ := C62_octree_partial (τ := 1/1000) (by norm_num) .ident (Body.cyl ⟨wcyl, 32⟩) hB (by norm_num : (0:ℝ) < 1/10)
    (.init (1/10) (by norm_num) hB)
  exact ⟨n, fun fuel hf => by obtain ⟨t', h, -⟩ := hn fuel hf; exact ⟨t', h⟩⟩

end Zeo

import Verif.Props.C73Use
import Verif.Props.C13
import Verif.Model.ShapeNURBS

/-! # C97: NURBS surfaces as shapes -/

namespace Zeo
open Spec NURBS

variable {n : NURBS} {sg : BSpline → ℝ → ℕ} {τ : ℝ}

/-- A shape is allocated with a sound surface of the given sizes, for orders less than the sizes. -/
theorem C97_alloc {s1 s2 o1 o2 : ℕ} (h1 : o1 < s1) (h2 : o2 < s2) :
    ∃ n, NShape.alloc s1 s2 o1 o2 = (true, ⟨some n, true⟩) ∧ NurbsOK n ∧ n.n0 = s1 ∧ n.n1 = s2 ∧ n.p0.order = o1 ∧
      n.p1.order = o2 ∧ (NShape.alloc s1 s2 o1 o2).2.destroy = some ⟨none, true⟩ := by
  obtain ⟨a, b⟩ := C73_alloc s1 s2 o1 o2
  cases h : NURBS.alloc s1 s2 o1 o2 with
  | none => rcases a.1 h with h | h <;> omega
  | some n =>
    obtain ⟨c1, c2, c3, c4, c5, -⟩ := b n h
    exact ⟨n, by simp [NShape.alloc, h], c5, c1, c2, c3, c4, by simp [NShape.alloc, NShape.destroy]⟩

/-- For other orders the allocation is reported as a success as well, and the shape has no surface. -/
theorem C97_alloc_false {s1 s2 o1 o2 : ℕ} (h : s1 ≤ o1 ∨ s2 ≤ o2) :
    (NShape.alloc s1 s2 o1 o2).1 = true ∧ ∀ n, (NShape.alloc s1 s2 o1 o2).2.body = some n → ¬ NurbsOK n ∧ n.n0 = 0 ∧ n.n1 = 0 := by
  refine ⟨rfl, fun n e => ?_⟩
  have : n = .zeroed := by
    simp only [NShape.alloc, (C73_alloc s1 s2 o1 o2).1.2 h, Option.getD_none, Option.some.injEq] at e
    exact e.symm
  subst this
  exact ⟨fun k => by have := k.k0.len; simp [NURBS.zeroed] at this, rfl, rfl⟩

example : (NShape.alloc 3 3 3 2).1 = true ∧ (3 ≤ 3 ∨ 3 ≤ 2) := ⟨rfl, .inl le_rfl⟩

/-- The clone of a shape has the same surface, and can be destroyed. -/
theorem C97_clone (hn : NurbsOK n) : NShape.clone ⟨some n, true⟩ = some (true, ⟨some n, true⟩) ∧
    (NShape.mk (some n) true).destroy = some ⟨none, true⟩ := by
  simp [NShape.clone, C73_clone hn, NShape.destroy]

/-- No NURBS shape can be mirrored: the call fails, and the destination is left with the methods of NURBS and no body, so that it
cannot be destroyed. -/
theorem C97_mirror_false (hn : NurbsOK n) (a : Fin 3) :
    ∃ d, NShape.mirror ⟨some n, true⟩ a = some (false, d) ∧ d.typed = true ∧ d.body = none ∧ d.destroy = none := by
  have h : n.mirror .zeroed a = none := by
    unfold NURBS.mirror
    have : n.copy .zeroed = none := by
      refine (C73_copy n .zeroed).2.2 (.inl ?_)
      rw [hn.k0.len]
      simp [NURBS.zeroed]
    rw [this]; rfl
  exact ⟨⟨none, true⟩, by simp [NShape.mirror, h], rfl, rfl, rfl⟩

private theorem copy_self (n d : NURBS) (h0 : d.p0.knot.length = n.p0.knot.length) (h1 : d.p1.knot.length = n.p1.knot.length)
    (e0 : d.n0 = n.n0) (e1 : d.n1 = n.n1) : n.copy d = some n := by
  rcases (C73_copy n d).1 with h | h
  · exact h
  · rcases (C73_copy n d).2.1 h with h | h | h | h
    · exact absurd h0.symm h
    · exact absurd h1.symm h
    · exact absurd e0.symm h
    · exact absurd e1.symm h

private theorem image (g : Vec3 ℝ → Vec3 ℝ) (m : NURBS) (h0 : m.p0 = n.p0) (h1 : m.p1 = n.p1) (h2 : m.n0 = n.n0) (h3 : m.n1 = n.n1)
    (h : ∀ u v, InDomain n.p0 n.n0 u → InDomain n.p1 n.n1 v → m.vec sg τ u v = (n.vec sg τ u v).map g) :
    nurbsSurface sg τ m = g '' nurbsSurface sg τ n := by
  ext q
  simp only [nurbsSurface, Set.mem_setOf_eq, Set.mem_image, h0, h1, h2, h3]
  constructor
  · rintro ⟨u, v, hu, hv, e⟩
    rw [h u v hu hv] at e
    obtain ⟨p, hp, rfl⟩ := Option.map_eq_some_iff.1 e
    exact ⟨p, ⟨u, v, hu, hv, hp⟩, rfl⟩
  · rintro ⟨p, ⟨u, v, hu, hv, hp⟩, rfl⟩
    exact ⟨u, v, hu, hv, by rw [h u v hu hv, hp]; rfl⟩

/-- Transforming a shape into one of the same sizes gives the image of the surface; so does the inverse transformation, and each undoes
the other for an orthonormal frame. -/
theorem C97_xform (hs : IsSegment sg) (hn : NurbsOK n) (f : Frame3 ℝ) {d : NURBS} (h0 : d.p0.knot.length = n.p0.knot.length)
    (h1 : d.p1.knot.length = n.p1.knot.length) (e0 : d.n0 = n.n0) (e1 : d.n1 = n.n1) :
    (∃ m, NShape.xform ⟨some n, true⟩ f ⟨some d, true⟩ = some ⟨some m, true⟩ ∧ NurbsOK m ∧
      nurbsSurface sg τ m = f.xform '' nurbsSurface sg τ n ∧
      (f.Orthonormal → NShape.xformInv ⟨some m, true⟩ f ⟨some d, true⟩ = some ⟨some n, true⟩)) ∧
    ∃ m, NShape.xformInv ⟨some n, true⟩ f ⟨some d, true⟩ = some ⟨some m, true⟩ ∧ NurbsOK m ∧
      nurbsSurface sg τ m = f.xformInv '' nurbsSurface sg τ n ∧
      (f.Orthonormal → NShape.xform ⟨some m, true⟩ f ⟨some d, true⟩ = some ⟨some n, true⟩) := by
  have c := copy_self n d h0 h1 e0 e1
  have cm (g : Vec3 ℝ → Vec3 ℝ) : (n.mapCP g).copy d = some (n.mapCP g) := copy_self (n.mapCP g) d h0 h1 e0 e1
  have x : n.xform f d = some (n.mapCP f.xform) := by rw [NURBS.xform, c]; rfl
  have y : n.xformInv f d = some (n.mapCP f.xformInv) := by rw [NURBS.xformInv, c]; rfl
  refine ⟨⟨n.mapCP f.xform, by simp [NShape.xform, x], ⟨hn.k0, hn.k1⟩, ?_, fun ho => ?_⟩,
    ⟨n.mapCP f.xformInv, by simp [NShape.xformInv, y], ⟨hn.k0, hn.k1⟩, ?_, fun ho => ?_⟩⟩
  · exact image _ _ rfl rfl rfl rfl fun u v hu hv => C73_xform hs hn x hu hv
  · simp only [NShape.xformInv, NURBS.xformInv, cm, Option.map_some, Option.getD_some]
    simp [mapCP, (C13_xform_inv f ho _).1]
  · exact image _ _ rfl rfl rfl rfl fun u v hu hv => C73_xformInv hs hn y hu hv
  · simp only [NShape.xform, NURBS.xform, cm, Option.map_some, Option.getD_some]
    simp [mapCP, (C13_xform_inv f ho _).2]

/-- All points of a surface just allocated are the origin. -/
private theorem zeros (hs : IsSegment sg) {s o : ℕ} (h : NURBS.alloc s s o o = some n) {q : Vec3 ℝ} (hq : q ∈ nurbsSurface sg τ n) :
    q = .zero := by
  obtain ⟨-, -, -, -, ok, -⟩ := (C73_alloc s s o o).2 n h
  have cp : ∀ i j, n.cp i j = .zero := by
    unfold NURBS.alloc at h
    split_ifs at h
    cases h
    intros; rfl
  obtain ⟨u, v, hu, hv, e⟩ := hq
  let f : Frame3 ℝ := ⟨.zero, ⟨.zero, .zero, .zero⟩⟩
  have z : ∀ p, f.xform p = .zero := fun p => by simp [f, Frame3.xform, Mat3.mulVec, Vec3.add, Vec3.zero, Vec3.inner]
  have x : n.xform f n = some n := by
    rw [NURBS.xform, copy_self n n rfl rfl rfl rfl]
    simp only [Option.map_some, mapCP, Option.some.injEq, z]
    obtain ⟨_, _, _, _, c, _⟩ := n
    congr 1
    funext i j
    exact (cp i j).symm
  have := C73_xform (τ := τ) hs ok x hu hv
  rw [e, Option.map_some, z, Option.some.injEq] at this
  exact this

/-- Into a shape of other sizes nothing is transformed, although the destination is returned: its surface is not the image. -/
theorem C97_xform_false : ∃ (n d : NURBS) (f : Frame3 ℝ), NurbsOK n ∧ NurbsOK d ∧ f.Orthonormal ∧
    NShape.xform ⟨some n, true⟩ f ⟨some d, true⟩ = some ⟨some d, true⟩ ∧
    ∀ sg, IsSegment sg → ∀ τ, 0 ≤ τ → τ < 1 → nurbsSurface sg τ d ≠ f.xform '' nurbsSurface sg τ n := by
  obtain ⟨n, hn⟩ := Option.ne_none_iff_exists'.1 (fun h => by simpa using (C73_alloc 2 2 1 1).1.1 h)
  obtain ⟨d, hd⟩ := Option.ne_none_iff_exists'.1 (fun h => by simpa using (C73_alloc 3 3 1 1).1.1 h)
  obtain ⟨a0, a1, -, -, ok, -⟩ := (C73_alloc 2 2 1 1).2 n hn
  obtain ⟨b0, b1, -, -, ok', cl0, cl1, w⟩ := (C73_alloc 3 3 1 1).2 d hd
  refine ⟨n, d, ⟨⟨1, 0, 0⟩, .ident⟩, ok, ok', ?_, ?_, fun sg hs τ t0 t1 e => ?_⟩
  · exact (Mat3.orth_iff' _).2 (by simp [Mat3.ident, zeo])
  · have : n.copy d = none := (C73_copy n d).2.2 (.inr (.inr (.inl (by omega))))
    simp [NShape.xform, NURBS.xform, this]
  · have cor := (C73_corner hs ok' cl0 cl1 t0 (fun i _ j _ => by rw [w, abs_one]; exact t1)).1
    have : d.cp 0 0 ∈ nurbsSurface sg τ d := ⟨_, _, ⟨le_rfl, ok'.k0.wide.le⟩, ⟨le_rfl, ok'.k1.wide.le⟩, cor⟩
    have z := zeros hs hd this
    rw [e] at this
    obtain ⟨p, hp, hx⟩ := this
    rw [zeros hs hn hp, z] at hx
    have := congrArg Vec3.x hx
    simp [zeo] at this

/-- The distance of a point is that from the closest point found, which is a point of the surface; it does not depend on what the
variables held before. Not claimed: that no point of the surface is closer (`C73_closest_false`). -/
theorem C97_closest_partial (hs : IsSegment sg) (hn : NurbsOK n) (hτ : 0 ≤ τ) {iter : ℕ} (hi : 0 < iter) (p old junk : Vec3 ℝ) :
    NShape.distFromPoint sg τ iter n p junk = (NShape.closest sg τ iter n p old).map Prod.fst ∧
    ∀ d q, NShape.closest sg τ iter n p old = some (d, q) →
      q ∈ nurbsSurface sg τ n ∧ d = Real.sqrt ((p.x - q.x) ^ 2 + (p.y - q.y) ^ 2 + (p.z - q.z) ^ 2) := by
  have e : n.closest sg τ iter p junk = n.closest sg τ iter p old := by
    obtain ⟨k, rfl⟩ : ∃ k, iter = k + 1 := ⟨iter - 1, by omega⟩
    unfold NURBS.closest
    dsimp only
    congr 1
  refine ⟨?_, fun d q h => ?_⟩
  · rw [NShape.distFromPoint, NShape.closest, e, Option.map_map]; rfl
  · obtain ⟨⟨d', q', u, v⟩, hc, e⟩ := Option.map_eq_some_iff.1 h
    simp only [Prod.mk.injEq] at e
    obtain ⟨rfl, rfl⟩ := e
    have := C73_closest_partial hs hn hτ hi hc
    exact ⟨this.1, this.2.1⟩

/-- No point is inside, not even a point of the surface for a margin. -/
theorem C97_inside_false (hs : IsSegment sg) (hτ : 0 ≤ τ) (h1 : τ < 1) (margin : ℝ) :
    ∃ n p, NurbsOK n ∧ p ∈ nurbsSurface sg τ n ∧ NShape.pointIsInside n p margin = false := by
  obtain ⟨n, hn⟩ := Option.ne_none_iff_exists'.1 (fun h => by simpa using (C73_alloc 2 2 1 1).1.1 h)
  obtain ⟨-, -, -, -, ok, cl0, cl1, w⟩ := (C73_alloc 2 2 1 1).2 n hn
  have cor := (C73_corner hs ok cl0 cl1 hτ (fun i _ j _ => by rw [w, abs_one]; exact h1)).1
  exact ⟨n, _, ok, ⟨_, _, ⟨le_rfl, ok.k0.wide.le⟩, ⟨le_rfl, ok.k1.wide.le⟩, cor⟩, rfl⟩

/-- The barycenter and the inertia about it are not given, which is reported. The inertia about the origin is reported as given, but it is
made of the values that the variables held before: it differs with them. -/
theorem C97_inertia_false (n : NURBS) :
    (∀ old, (NShape.barycenter n old).1 = false) ∧ (∀ m old, (NShape.baryInertiaMass n m old).1 = false ∧ (NShape.baryInertia n m old).1 = false) ∧
    NShape.volume n = 0 ∧
    (∀ m ≠ 0, ∀ old, ∃ j j', (NShape.inertiaMass n m j old).1 = true ∧ (NShape.inertiaMass n m j' old).1 = true ∧
      (NShape.inertiaMass n m j old).2 ≠ (NShape.inertiaMass n m j' old).2) ∧
    ∀ ρ j old, NShape.inertia n ρ j old = (true, old) := by
  refine ⟨fun _ => rfl, fun _ _ => ⟨rfl, rfl⟩, rfl, fun m hm old => ⟨.zero, ⟨1, 0, 0⟩, rfl, rfl, fun h => ?_⟩, fun ρ j old => ?_⟩
  · have := congrArg (fun x : Mat3 ℝ => x.y.y) h
    simp [NShape.inertiaMass, NShape.baryInertiaMass, NShape.barycenter, Mat3.catDoubleOuter, Vec3.zero] at this
    exact hm this
  · simp [NShape.inertia, NShape.volume, NShape.baryInertiaMass, Mat3.catDoubleOuter]

/-- The hypotheses of `C97_clone`, `C97_mirror_false`, `C97_xform` and `C97_closest_partial` can be met together. -/
example : ∃ (n d : NURBS), NurbsOK n ∧ n.n0 = 4 ∧ n.n1 = 3 ∧ d.p0.knot.length = n.p0.knot.length ∧
    d.p1.knot.length = n.p1.knot.length ∧ d.n0 = n.n0 ∧ d.n1 = n.n1 := by
  obtain ⟨n, -, ok, h, h', -⟩ := C97_alloc (s1 := 4) (s2 := 3) (o1 := 2) (o2 := 1) (by omega) (by omega)
  exact ⟨n, n, ok, h, h', rfl, rfl, rfl, rfl⟩

end Zeo

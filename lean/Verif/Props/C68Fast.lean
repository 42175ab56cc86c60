import Verif.Props.C68
import Verif.Props.C20
import Verif.Props.C37

/-! # C68, continued: the intersection restricted to the common bounding box, `zIntersectPH3DBREPFast` -/

namespace Zeo
open Spec BRep

/-- What `zIntersectPH3DBREPFast` returns is made of parts of some faces of either polyhedron, below the planes of
the other one.  Missing: that every face which reaches the common part is among them; see `C68_fast_boxes`. -/
theorem C68_fast_partial {τ : ℝ} (hτ : 0 ≤ τ) (hτ' : τ < 1 / 2) {p1 p2 : PH ℝ} (u1 : UnitNormals p1) (u2 : UnitNormals p2)
    {junk : Plane3 ℝ} {r : PH ℝ} (h : phIntersectFast τ p1 p2 junk = some r) :
    ∃ S1 S2 F1 F2 A B B', S1.Sublist (facePts p1) ∧ S2.Sublist (facePts p2) ∧
      List.Forall₂ (NearTri τ) F1 S1 ∧ List.Forall₂ (NearTri τ) F2 S2 ∧
      Valid r ∧ facePts r = A ++ B' ∧ List.Forall₂ (NearTri τ) B' B ∧
      ClippedTo τ (facePlanes p2) F1 A ∧ ClippedTo τ (facePlanes p1) F2 B := by
  unfold phIntersectFast at h
  rcases hib : intersectBox p1 p2 with _ | ib
  · rw [hib] at h; cases h
  rw [hib] at h
  rcases h1 : ofPHInBox τ p1 ib with _ | c1
  · simp only [bind, Option.bind, h1] at h; cases h
  rcases h2 : ofPHInBox τ p2 ib with _ | c2
  · simp only [bind, Option.bind, h1, h2] at h; cases h
  obtain ⟨fs1, l1, -, -, s1, -, -, n1⟩ := C66_inBox hτ p1 ib h1
  obtain ⟨fs2, l2, -, -, s2, -, -, n2⟩ := C66_inBox hτ p2 ib h2
  obtain ⟨b1, e1, s1, -, k1⟩ := C67_truncPH hτ hτ' s1 u2
  obtain ⟨b2, e2, s2, -, k2⟩ := C67_truncPH hτ hτ' s2 u1
  obtain ⟨m, em, -, -, hc, ⟨A, B', ef, eA, eB⟩, -⟩ := C68_merge hτ s1 s2
  obtain ⟨r', er, -, v, p, n, -⟩ := toPH_ok τ (b := m) fun f hf i => (hc f hf i).1
  simp only [bind, Option.bind, h1, h2, e1 junk, e2 junk, em] at h
  have : r' = r := Option.some.inj (er.symm.trans h)
  subst this
  exact ⟨_, _, _, _, A, _, B', l1.map _, l2.map _, n1, n2, v, p.trans ef, eB, eA ▸ k1, k2⟩

/-! ## Axis-aligned boxes -/

private theorem pairs (a x : Fin 3) : x = a ∨ a = x + 1 ∨ a = x + 2 := by
  revert a x; decide

/-- A triangle in a plane `x`, `y` or `z = c` that the box does not reach beyond is not reported. -/
private theorem edge_none {v1 v2 : Vec3 ℝ} {a : Fin 3} {c : ℝ} (h1 : v1.e a = c) (h2 : v2.e a = c) {b : AABox3 ℝ}
    (hc : c ≤ b.min.e a ∨ b.max.e a ≤ c) : triBoxEdge v1 v2 b = [] := by
  have key : ∀ x p, triBoxEdgeAxOne v1 v2 x p b = none := by
    intro x p
    unfold triBoxEdgeAxOne
    dsimp only
    split
    · rfl
    split
    · rfl
    rename_i hd
    rcases pairs a x with rfl | rfl | rfl
    · exact absurd (by rw [h1, h2]; ring) hd
    · rw [if_neg]
      rw [h1, h2, sub_self, zero_mul, zero_div, sub_zero]
      rintro ⟨k1, k2, -⟩
      rcases hc with hc | hc <;> linarith
    · rw [if_neg]
      rw [h1, h2, sub_self, zero_mul, zero_div, sub_zero]
      rintro ⟨-, -, k1, k2⟩
      rcases hc with hc | hc <;> linarith
  simp only [triBoxEdge, triBoxEdgeAx, key, Option.toList_none, List.append_nil]

private theorem not_inside {v : Vec3 ℝ} {a : Fin 3} {c τ : ℝ} (hτ : 0 < τ) (h : v.e a = c) {b : AABox3 ℝ}
    (hc : c ≤ b.min.e a ∨ b.max.e a ≤ c) : ¬ b.pointIsInside v (-τ) := by
  rintro ⟨⟨x1, x2⟩, ⟨y1, y2⟩, z1, z2⟩
  fin_cases a <;> simp only [Fin.zero_eta, Fin.mk_one, Fin.reduceFinMk, Vec3.e] at h hc <;>
    rcases hc with hc | hc <;> linarith

/-- A triangle in a plane `x`, `y` or `z = c` that the box does not reach beyond is not reported by
`zColChkTriAABox3D`. -/
theorem C68_side_missed {τ : ℝ} (hτ : 0 < τ) (hτ' : τ ≤ 1 / 4) {t : Tri3 ℝ} (hn : t.norm.x ^ 2 + t.norm.y ^ 2 + t.norm.z ^ 2 = 1)
    (hd : ¬ Near τ (triNormal (t.v0, t.v1, t.v2)) .zero) {b : AABox3 ℝ} {a : Fin 3} {c : ℝ}
    (h0 : t.v0.toFin a = c) (h1 : t.v1.toFin a = c) (h2 : t.v2.toFin a = c)
    (hc : c ≤ b.min.toFin a ∨ b.max.toFin a ≤ c) : ∃ P, colChkTriBox τ t b = some P ∧ ¬ P := by
  have te : ∀ v : Vec3 ℝ, v.toFin a = v.e a := by
    intro v; fin_cases a <;> rfl
  rw [te] at h0 h1 h2
  rw [te, te] at hc
  have hd' : ¬ (Tri3.outerProd t.v0 t.v1 t.v2).isTol τ := by
    intro h
    apply hd
    obtain ⟨x, y, z⟩ := h
    simp only [Tri3.outerProd, Vec3.outer, Vec3.sub, zIsTol] at x y z
    simp only [Near, triNormal, Vec3.zero, sub_zero]
    refine ⟨le_trans (le_of_eq ?_) x, le_trans (le_of_eq ?_) y, le_trans (le_of_eq ?_) z⟩ <;> congr 1 <;> ring
  have hpl : triBoxPlane τ t b = some [] := by
    unfold triBoxPlane
    rw [toPlane_unit hτ.le (by linarith) hn]
    simp only [Option.map_some, Option.some.injEq, List.filter_eq_nil_iff, decide_eq_true_eq]
    intro p _ hp
    obtain ⟨q, -, hq⟩ := (C20_pointIsInside τ hτ.le hτ' t.v0 t.v1 t.v2 p (-τ) (Or.inl hd')).1 hp
    have : 0 ≤ Spec.ed p q := Real.sqrt_nonneg _
    linarith
  refine ⟨_, by
    unfold colChkTriBox
    rw [if_neg, if_neg, hpl]
    · rfl
    · rw [edge_none h0 h1 hc, edge_none h1 h2 hc, edge_none h2 h0 hc]; simp
    · rintro (k | k | k)
      · exact not_inside hτ h0 hc k
      · exact not_inside hτ h1 hc k
      · exact not_inside hτ h2 hc k, by simp⟩

private theorem aabb_ok {p : PH ℝ} (hn : 0 < p.nv) : ∃ b w, aabb3 (.assignArray ((List.range p.nv).map p.vert)) = some (b, w) ∧
    (∀ i < p.nv, InBox b (p.vert i)) ∧ Witnesses ((List.range p.nv).map p.vert) b w := by
  have hw : (Data.assignArray ((List.range p.nv).map p.vert)).WF := by simp [Data.assignArray, Data.WF]
  have hcont : (Data.assignArray ((List.range p.nv).map p.vert)).contents = (List.range p.nv).map p.vert := by
    simp [Data.assignArray, Data.contents]
  obtain ⟨b, w, e, h1, h2⟩ := C37_aabb hw (by rw [hcont]; simp; omega)
  rw [hcont] at h1 h2
  exact ⟨b, w, e, fun i hi => h1 _ (List.mem_map_of_mem (List.mem_range.2 hi)), h2⟩

private theorem inter_bounds {b1 b2 ib : AABox3 ℝ} (h : b1.intersect b2 = some ib) (hb : ∀ a, b1.min.e a ≤ b1.max.e a)
    (hb' : ∀ a, b2.min.e a ≤ b2.max.e a) (a : Fin 3) :
    (b1.min.e a ≤ ib.min.e a ∧ ib.max.e a ≤ b1.max.e a) ∧ (b2.min.e a ≤ ib.min.e a ∧ ib.max.e a ≤ b2.max.e a) := by
  unfold AABox3.intersect at h
  split at h
  swap
  · cases h
  rename_i hc
  obtain ⟨c1, c2, c3, c4, c5, c6⟩ := hc
  cases h
  have k1 := hb a
  have k2 := hb' a
  fin_cases a <;> simp only [Fin.zero_eta, Fin.mk_one, Fin.reduceFinMk, Vec3.e, AABox3.create] at k1 k2 ⊢ <;>
    refine ⟨⟨?_, ?_⟩, ?_, ?_⟩ <;> grind

/-- A box none of whose faces is reported against the common bounding box. -/
private theorem lost {τ : ℝ} (hτ : 0 < τ) (hτ' : τ ≤ 1 / 4) {p : PH ℝ} (hu : UnitNormals p) (ha : AxisFaced p)
    (hd : ∀ t ∈ facePts p, ¬ Near τ (triNormal t) .zero) {b ib : AABox3 ℝ} {w : Fin 6 → Vec3 ℝ}
    (hw : Witnesses ((List.range p.nv).map p.vert) b w)
    (hb : ∀ a, b.min.e a ≤ ib.min.e a ∧ ib.max.e a ≤ b.max.e a) : ofPHInBox τ p ib = some (insertFaces τ p []) := by
  classical
  have key : ∀ f ∈ p.face, ∃ P, colChkTriBox τ (p.tri f) ib = some P ∧ ¬ P := by
    intro f hf
    obtain ⟨a, c, h, hc⟩ := ha f hf
    refine C68_side_missed hτ hτ' (hu f hf) (hd _ (List.mem_map_of_mem hf)) (h f.i0 (by simp)) (h f.i1 (by simp))
      (h f.i2 (by simp)) ?_
    have hb := hb a
    have hwm : ∀ j, ∃ i < p.nv, p.vert i = w j := by
      intro j
      obtain ⟨i, hi, e⟩ := List.mem_map.1 (hw.1 j)
      exact ⟨i, List.mem_range.1 hi, e⟩
    obtain ⟨-, w0, w1, w2, w3, w4, w5⟩ := hw
    fin_cases a <;> simp only [Fin.zero_eta, Fin.mk_one, Fin.reduceFinMk] at hb hc ⊢ <;>
      simp only [Vec3.e] at hb <;>
      rcases hc with hc | hc
    · left
      obtain ⟨i, hi, e⟩ := hwm 3
      have := hc i hi
      rw [e] at this
      have h' : (w 3).toFin 0 = (w 3).x := rfl
      have h'' : ib.min.toFin 0 = ib.min.x := rfl
      rw [h'] at this; rw [h'']; linarith
    · right
      obtain ⟨i, hi, e⟩ := hwm 0
      have := hc i hi
      rw [e] at this
      have h' : (w 0).toFin 0 = (w 0).x := rfl
      have h'' : ib.max.toFin 0 = ib.max.x := rfl
      rw [h'] at this; rw [h'']; linarith
    · left
      obtain ⟨i, hi, e⟩ := hwm 4
      have := hc i hi
      rw [e] at this
      have h' : (w 4).toFin 1 = (w 4).y := rfl
      have h'' : ib.min.toFin 1 = ib.min.y := rfl
      rw [h'] at this; rw [h'']; linarith
    · right
      obtain ⟨i, hi, e⟩ := hwm 1
      have := hc i hi
      rw [e] at this
      have h' : (w 1).toFin 1 = (w 1).y := rfl
      have h'' : ib.max.toFin 1 = ib.max.y := rfl
      rw [h'] at this; rw [h'']; linarith
    · left
      obtain ⟨i, hi, e⟩ := hwm 5
      have := hc i hi
      rw [e] at this
      have h' : (w 5).toFin 2 = (w 5).z := rfl
      have h'' : ib.min.toFin 2 = ib.min.z := rfl
      rw [h'] at this; rw [h'']; linarith
    · right
      obtain ⟨i, hi, e⟩ := hwm 2
      have := hc i hi
      rw [e] at this
      have h' : (w 2).toFin 2 = (w 2).z := rfl
      have h'' : ib.max.toFin 2 = ib.max.z := rfl
      rw [h'] at this; rw [h'']; linarith
  unfold ofPHInBox
  rw [if_pos, List.filter_eq_nil_iff.2]
  · intro f hf
    obtain ⟨P, e, hP⟩ := key f hf
    rw [decide_eq_true_eq, e, Option.some.injEq]
    intro h
    exact hP (h ▸ trivial)
  · intro f hf
    obtain ⟨P, e, -⟩ := key f hf
    rw [e]; rfl

/-- For two overlapping axis-aligned boxes `zIntersectPH3DBREPFast` returns a polyhedron without vertices and
faces, at every positive tolerance: a side of either box lies on or outside the common bounding box, where
the test against the box reports nothing. -/
theorem C68_fast_boxes {τ : ℝ} (hτ : 0 < τ) (hτ' : τ ≤ 1 / 4) {p1 p2 : PH ℝ} (n1 : 0 < p1.nv) (n2 : 0 < p2.nv)
    (u1 : UnitNormals p1) (u2 : UnitNormals p2) (a1 : AxisFaced p1) (a2 : AxisFaced p2)
    (d1 : ∀ t ∈ facePts p1, ¬ Near τ (triNormal t) .zero) (d2 : ∀ t ∈ facePts p2, ¬ Near τ (triNormal t) .zero) :
    (intersectBox p1 p2 = none ∧ ∀ junk, phIntersectFast τ p1 p2 junk = none) ∨
      ∃ r, (∀ junk, phIntersectFast τ p1 p2 junk = some r) ∧ r.nv = 0 ∧ r.face = [] := by
  obtain ⟨b1, w1, e1, i1, k1⟩ := aabb_ok n1
  obtain ⟨b2, w2, e2, i2, k2⟩ := aabb_ok n2
  have hib : intersectBox p1 p2 = b1.intersect b2 := by
    simp only [intersectBox, e1, e2]; rfl
  rcases hI : b1.intersect b2 with _ | ib
  · left
    rw [hI] at hib
    refine ⟨hib, fun junk => ?_⟩
    simp only [phIntersectFast, hib]; rfl
  right
  rw [hI] at hib
  have ord : ∀ {b : AABox3 ℝ} {v : Vec3 ℝ}, InBox b v → ∀ a, b.min.e a ≤ b.max.e a := by
    rintro b v ⟨x1, x2, y1, y2, z1, z2⟩ a
    fin_cases a <;> simp only [Fin.zero_eta, Fin.mk_one, Fin.reduceFinMk, Vec3.e] <;> linarith
  have B := inter_bounds hI (ord (i1 0 n1)) (ord (i2 0 n2))
  have l1 := lost hτ hτ' u1 a1 d1 k1 fun a => (B a).1
  have l2 := lost hτ hτ' u2 a2 d2 k2 fun a => (B a).2
  obtain ⟨s1, -⟩ := insertFaces_ok hτ.le p1 []
  obtain ⟨s2, -⟩ := insertFaces_ok hτ.le p2 []
  have nil : ∀ {p q : PH ℝ}, UnitNormals q → Sound (insertFaces τ p []) →
      ∃ b, (∀ junk, (insertFaces τ p []).truncPH τ q junk = some b) ∧ Sound b ∧ b.vlist = [] ∧ b.flist = [] := by
    intro p q hq hs
    obtain ⟨b, e, s, -⟩ := C67_truncPH hτ.le (by linarith) hs hq
    obtain ⟨b', e', t⟩ := truncPlanes_ok hτ.le (by linarith) q q.face hq ⟨.zero, .zero⟩ _ hs
    have : b' = b := Option.some.inj (e'.symm.trans (e _))
    subst this
    obtain ⟨q1, q2, -⟩ := t.same fun pl _ i hi => by cases hi
    exact ⟨b', e, s, q2, q1⟩
  obtain ⟨c1, f1, t1, v1, g1⟩ := nil (p := p1) u2 s1
  obtain ⟨c2, f2, t2, v2, g2⟩ := nil (p := p2) u1 s2
  obtain ⟨m, em, -, -, hc, ⟨A, B', ef, eA, eB⟩, hv⟩ := C68_merge hτ.le t1 t2
  obtain ⟨r, er, en, -, ep, -⟩ := toPH_ok τ (b := m) fun f hf i => (hc f hf i).1
  refine ⟨r, fun junk => ?_, ?_, ?_⟩
  · simp only [phIntersectFast, hib, bind, Option.bind, l1, l2, f1 junk, f2 junk, em]
    exact er
  · rw [en, List.length_eq_zero_iff, List.eq_nil_iff_forall_not_mem]
    intro i hi
    rcases hv i hi with ⟨j, hj, -⟩ | ⟨j, hj, -⟩
    · rw [v1] at hj; cases hj
    · rw [v2] at hj; cases hj
  · rw [g1] at eA
    rw [g2] at eB
    have hB : B' = [] := by cases eB; rfl
    have : facePts r = [] := by rw [ep, ef, eA, hB]; rfl
    simpa [facePts] using this

/-- A cube with the edge 2 and the lowest corner `(o, o, o)`. -/
private noncomputable def cubePH (o : ℝ) : PH ℝ :=
  ⟨8, fun i => ⟨o + if i < 4 then 0 else 2, o + if i % 4 < 2 then 0 else 2, o + if i % 2 = 0 then 0 else 2⟩,
   [⟨0, 1, 3, ⟨-1, 0, 0⟩⟩, ⟨0, 3, 2, ⟨-1, 0, 0⟩⟩, ⟨4, 7, 5, ⟨1, 0, 0⟩⟩, ⟨4, 6, 7, ⟨1, 0, 0⟩⟩,
    ⟨0, 4, 5, ⟨0, -1, 0⟩⟩, ⟨0, 5, 1, ⟨0, -1, 0⟩⟩, ⟨2, 7, 6, ⟨0, 1, 0⟩⟩, ⟨2, 3, 7, ⟨0, 1, 0⟩⟩,
    ⟨0, 2, 6, ⟨0, 0, -1⟩⟩, ⟨0, 6, 4, ⟨0, 0, -1⟩⟩, ⟨1, 7, 3, ⟨0, 0, 1⟩⟩, ⟨1, 5, 7, ⟨0, 0, 1⟩⟩]⟩

private theorem cube_unit (o : ℝ) : UnitNormals (cubePH o) := by
  intro f hf
  simp only [cubePH, List.mem_cons, List.not_mem_nil, or_false] at hf
  rcases hf with rfl | rfl | rfl | rfl | rfl | rfl | rfl | rfl | rfl | rfl | rfl | rfl <;> norm_num

private theorem cube_axis (o : ℝ) : AxisFaced (cubePH o) := by
  have lo : ∀ a : Fin 3, ∀ i < (cubePH o).nv, o ≤ ((cubePH o).vert i).toFin a := by
    intro a i _
    fin_cases a <;> simp only [Vec3.toFin, cubePH] <;> dsimp <;> split <;> linarith
  have hi : ∀ a : Fin 3, ∀ i < (cubePH o).nv, ((cubePH o).vert i).toFin a ≤ o + 2 := by
    intro a i _
    fin_cases a <;> simp only [Vec3.toFin, cubePH] <;> dsimp <;> split <;> linarith
  intro f hf
  simp only [cubePH, List.mem_cons, List.not_mem_nil, or_false] at hf
  rcases hf with rfl | rfl | rfl | rfl | rfl | rfl | rfl | rfl | rfl | rfl | rfl | rfl
  · exact ⟨0, o, by simp [Vec3.toFin, cubePH], Or.inl (lo 0)⟩
  · exact ⟨0, o, by simp [Vec3.toFin, cubePH], Or.inl (lo 0)⟩
  · exact ⟨0, o + 2, by simp [Vec3.toFin, cubePH], Or.inr (hi 0)⟩
  · exact ⟨0, o + 2, by simp [Vec3.toFin, cubePH], Or.inr (hi 0)⟩
  · exact ⟨1, o, by simp [Vec3.toFin, cubePH], Or.inl (lo 1)⟩
  · exact ⟨1, o, by simp [Vec3.toFin, cubePH], Or.inl (lo 1)⟩
  · exact ⟨1, o + 2, by simp [Vec3.toFin, cubePH], Or.inr (hi 1)⟩
  · exact ⟨1, o + 2, by simp [Vec3.toFin, cubePH], Or.inr (hi 1)⟩
  · exact ⟨2, o, by simp [Vec3.toFin, cubePH], Or.inl (lo 2)⟩
  · exact ⟨2, o, by simp [Vec3.toFin, cubePH], Or.inl (lo 2)⟩
  · exact ⟨2, o + 2, by simp [Vec3.toFin, cubePH], Or.inr (hi 2)⟩
  · exact ⟨2, o + 2, by simp [Vec3.toFin, cubePH], Or.inr (hi 2)⟩

private theorem cube_nd {τ : ℝ} (hτ' : τ ≤ 1 / 4) (o : ℝ) : ∀ t ∈ facePts (cubePH o), ¬ Near τ (triNormal t) .zero := by
  intro t ht
  simp only [facePts, cubePH, List.map_cons, List.map_nil, List.mem_cons, List.not_mem_nil, or_false] at ht
  rcases ht with rfl | rfl | rfl | rfl | rfl | rfl | rfl | rfl | rfl | rfl | rfl | rfl <;>
    rintro ⟨h1, h2, h3⟩ <;> norm_num [triNormal, Vec3.zero] at h1 h2 h3 <;> linarith

/-- The cubes from `(0,0,0)` to `(2,2,2)` and from `(1,1,1)` to `(3,3,3)`: the point `(3/2,3/2,3/2)` is inside both by
1/2, but the result of `zIntersectPH3DBREPFast` is empty. -/
theorem C68_fast_cubes {τ : ℝ} (hτ : 0 < τ) (hτ' : τ ≤ 1 / 4) :
    ∃ p1 p2 : PH ℝ, Valid p1 ∧ Valid p2 ∧ UnitNormals p1 ∧ UnitNormals p2 ∧
      (∀ pl ∈ facePlanes p1 ++ facePlanes p2, height pl ⟨3 / 2, 3 / 2, 3 / 2⟩ ≤ -1 / 2) ∧
      ∃ r, (∀ junk, phIntersectFast τ p1 p2 junk = some r) ∧ r.nv = 0 ∧ r.face = [] := by
  have hv : ∀ o, Valid (cubePH o) := by
    intro o f hf
    simp only [cubePH, List.mem_cons, List.not_mem_nil, or_false] at hf
    rcases hf with rfl | rfl | rfl | rfl | rfl | rfl | rfl | rfl | rfl | rfl | rfl | rfl <;> norm_num [cubePH]
  refine ⟨cubePH 0, cubePH 1, hv 0, hv 1, cube_unit 0, cube_unit 1, ?_, ?_⟩
  · intro pl hp
    rcases List.mem_append.1 hp with hp | hp <;>
      simp only [facePlanes, cubePH, List.map_cons, List.map_nil, List.mem_cons, List.not_mem_nil, or_false] at hp <;>
      rcases hp with rfl | rfl | rfl | rfl | rfl | rfl | rfl | rfl | rfl | rfl | rfl | rfl <;> norm_num [height]
  · have n : ∀ o, 0 < (cubePH o).nv := fun o => by simp [cubePH]
    rcases C68_fast_boxes hτ hτ' (n 0) (n 1) (cube_unit 0) (cube_unit 1) (cube_axis 0) (cube_axis 1) (cube_nd hτ' 0)
      (cube_nd hτ' 1) with ⟨h, -⟩ | h
    · exfalso
      obtain ⟨b1, w1, e1, i1, k1⟩ := aabb_ok (n 0)
      obtain ⟨b2, w2, e2, i2, k2⟩ := aabb_ok (n 1)
      simp only [intersectBox, e1, e2, bind, Option.bind, AABox3.intersect] at h
      rw [if_pos] at h
      · cases h
      · have x0 := i1 0 (by norm_num [cubePH])
        have x7 := i1 7 (by norm_num [cubePH])
        have y0 := i2 0 (by norm_num [cubePH])
        have y7 := i2 7 (by norm_num [cubePH])
        simp only [InBox, cubePH] at x0 x7 y0 y7
        norm_num at x0 x7 y0 y7
        refine ⟨?_, ?_, ?_, ?_, ?_, ?_⟩ <;> linarith
    · exact h

end Zeo

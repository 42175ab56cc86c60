import Verif.Lemmas.BRepTrunc
import Verif.Spec.Mesh

/-! # Conversion between polyhedra and boundary representations -/

namespace Zeo
open Spec
namespace BRep

theorem equal_near {τ : ℝ} {p q : Vec3 ℝ} : p.equal τ q ↔ Near τ p q := Iff.rfl
theorem near_refl {τ : ℝ} (h : 0 ≤ τ) (p : Vec3 ℝ) : Near τ p p := by simp [Near, h]
theorem near_symm {τ : ℝ} {p q : Vec3 ℝ} (h : Near τ p q) : Near τ q p := by
  simpa only [Near, abs_sub_comm] using h
theorem near_zero {p q : Vec3 ℝ} (h : Near 0 p q) : p = q := by
  obtain ⟨h1, h2, h3⟩ := h
  have := abs_nonpos_iff.1 h1; have := abs_nonpos_iff.1 h2; have := abs_nonpos_iff.1 h3
  ext <;> linarith

/-- Growth of the vertex and edge lists. -/
structure Ext (b b' : BRep) : Prop where
  vlist : ∀ i ∈ b.vlist, i ∈ b'.vlist
  vert : ∀ i ∈ b.vlist, b'.vert i = b.vert i
  elist : ∀ e ∈ b.elist, e ∈ b'.elist
  edge : ∀ e ∈ b.elist, b'.edge e = b.edge e
  flist : b'.flist = b.flist

theorem Ext.refl (b : BRep) : Ext b b := ⟨fun _ h => h, fun _ _ => rfl, fun _ h => h, fun _ _ => rfl, rfl⟩
theorem Ext.trans {a b c : BRep} (h : Ext a b) (k : Ext b c) : Ext a c :=
  ⟨fun i hi => k.vlist i (h.vlist i hi), fun i hi => (k.vert i (h.vlist i hi)).trans (h.vert i hi),
   fun e he => k.elist e (h.elist e he), fun e he => (k.edge e (h.elist e he)).trans (h.edge e he),
   k.flist.trans h.flist⟩
theorem Ext.pos {a b : BRep} (h : Ext a b) {i : ℕ} (hi : i ∈ a.vlist) : b.pos i = a.pos i := by
  simp only [BRep.pos, h.vert i hi]

theorem newVert_ok {τ : ℝ} {b : BRep} (h : Sound b) (hp : Distinct τ b) {w : BVert}
    (hw : ∀ i ∈ b.vlist, ¬ Near τ (b.pos i) w.p) :
    Sound (b.newVert w) ∧ Distinct τ (b.newVert w) ∧ Ext b (b.newVert w) ∧ b.nv ∈ (b.newVert w).vlist ∧
      (b.newVert w).vert b.nv = w := by
  have hn : b.nv ∉ b.vlist := fun hm => lt_irrefl _ (h.vlt _ hm)
  have hold : ∀ i ∈ b.vlist, (b.newVert w).vert i = b.vert i := fun i hi =>
    Function.update_of_ne (show i ≠ b.nv from fun h' => hn (h' ▸ hi)) _ _
  have hnew : (b.newVert w).vert b.nv = w := Function.update_self _ _ _
  have hm : ∀ i, i ∈ (b.newVert w).vlist ↔ i ∈ b.vlist ∨ i = b.nv := fun i => by simp [BRep.newVert]
  have hsub : ∀ i ∈ b.vlist, i ∈ (b.newVert w).vlist := fun i hi => (hm i).2 (Or.inl hi)
  refine ⟨⟨?_, h.enodup, ?_, h.elt, fun e he => ⟨hsub _ (h.ends e he).1, hsub _ (h.ends e he).2⟩, h.nocut,
    fun f hf i => hsub _ (h.corner f hf i), h.side⟩, ⟨?_, hp.edges⟩,
    ⟨hsub, hold, fun _ h => h, fun _ _ => rfl, rfl⟩, (hm _).2 (Or.inr rfl), hnew⟩
  · show (b.vlist ++ [b.nv]).Nodup
    rw [List.nodup_append]
    exact ⟨h.vnodup, by simp, fun x hx y hy => by
      rw [List.mem_singleton] at hy; subst hy; exact fun h' => hn (h' ▸ hx)⟩
  · intro i hi
    show i < b.nv + 1
    rcases (hm i).1 hi with hi | rfl
    · have := h.vlt i hi; omega
    · omega
  · intro i hi j hj hij
    rcases (hm i).1 hi with hi | rfl <;> rcases (hm j).1 hj with hj | rfl
    · rw [hold i hi, hold j hj] at hij; exact hp.verts i hi j hj hij
    · rw [hold i hi, hnew] at hij; exact absurd hij (hw i hi)
    · rw [hold j hj, hnew] at hij; exact absurd (near_symm hij) (hw j hj)
    · rfl

theorem vertFind_some {τ : ℝ} {b : BRep} {q : Vec3 ℝ} {i : ℕ} (h : b.vertFind τ q = some i) :
    i ∈ b.vlist ∧ Near τ (b.pos i) q :=
  ⟨List.mem_of_find?_eq_some h, by
    have := List.find?_some h
    simp only [decide_eq_true_eq] at this; exact this⟩
theorem vertFind_none {τ : ℝ} {b : BRep} {q : Vec3 ℝ} (h : b.vertFind τ q = none) :
    ∀ i ∈ b.vlist, ¬ Near τ (b.pos i) q := fun i hi hc => by
  have := List.find?_eq_none.1 h i hi
  simp only [decide_eq_true_eq] at this
  exact this hc

theorem vertReg_ok {τ : ℝ} (hτ : 0 ≤ τ) {b : BRep} (h : Sound b) (hp : Distinct τ b) (q : Vec3 ℝ) :
    Sound (b.vertReg τ q).1 ∧ Distinct τ (b.vertReg τ q).1 ∧ Ext b (b.vertReg τ q).1 ∧
      (b.vertReg τ q).2 ∈ (b.vertReg τ q).1.vlist ∧ Near τ ((b.vertReg τ q).1.pos (b.vertReg τ q).2) q ∧
      (∀ i ∈ (b.vertReg τ q).1.vlist, i ∈ b.vlist ∨ i = (b.vertReg τ q).2 ∧ (b.vertReg τ q).1.pos i = q) ∧
      (b.vertReg τ q).1.elist = b.elist := by
  unfold vertReg
  split
  · rename_i i hi
    obtain ⟨hm, he⟩ := vertFind_some hi
    exact ⟨h, hp, .refl b, hm, he, fun j hj => Or.inl hj, rfl⟩
  · rename_i hi
    obtain ⟨h1, h2, h3, h4, h5⟩ := newVert_ok h hp (w := ⟨q, 0⟩) (vertFind_none hi)
    have e : (b.newVert ⟨q, 0⟩).pos b.nv = q := by simp only [BRep.pos, h5]
    refine ⟨h1, h2, h3, h4, by rw [e]; exact near_refl hτ q, ?_, rfl⟩
    intro j hj
    rcases List.mem_append.1 (show j ∈ b.vlist ++ [b.nv] from hj) with hj | hj
    · exact Or.inl hj
    · rw [List.mem_singleton] at hj; subst hj; exact Or.inr ⟨rfl, e⟩

theorem edgeFind_some {b : BRep} {u v e : ℕ} (h : b.edgeFind u v = some e) :
    e ∈ b.elist ∧ SamePair (b.edge e) u v :=
  ⟨List.mem_of_find?_eq_some h, by
    have := List.find?_some h
    rw [decide_eq_true_eq] at this
    exact this⟩
theorem edgeFind_none {b : BRep} {u v : ℕ} (h : b.edgeFind u v = none) :
    ∀ e ∈ b.elist, ¬ SamePair (b.edge e) u v := fun e he hc => by
  have := List.find?_eq_none.1 h e he
  simp only [decide_eq_true_eq] at this
  exact this hc

theorem samePair_comm {e e' : BEdge} (h : SamePair e e'.v0 e'.v1) : SamePair e' e.v0 e.v1 := by
  rcases h with ⟨h0, h1⟩ | ⟨h0, h1⟩
  · exact Or.inl ⟨h0.symm, h1.symm⟩
  · exact Or.inr ⟨h1.symm, h0.symm⟩

theorem newEdge_ok {τ : ℝ} {b : BRep} (h : Sound b) (hp : Distinct τ b) {u v : ℕ} (hu : u ∈ b.vlist)
    (hv : v ∈ b.vlist) (hw : ∀ e ∈ b.elist, ¬ SamePair (b.edge e) u v) :
    Sound (b.newEdge u v) ∧ Distinct τ (b.newEdge u v) ∧ Ext b (b.newEdge u v) ∧ b.ne ∈ (b.newEdge u v).elist ∧
      (b.newEdge u v).edge b.ne = ⟨u, v, none⟩ := by
  have hn : b.ne ∉ b.elist := fun hm => lt_irrefl _ (h.elt _ hm)
  have hold : ∀ e ∈ b.elist, (b.newEdge u v).edge e = b.edge e := fun e he =>
    Function.update_of_ne (show e ≠ b.ne from fun h' => hn (h' ▸ he)) _ _
  have hnew : (b.newEdge u v).edge b.ne = ⟨u, v, none⟩ := Function.update_self _ _ _
  have hm : ∀ e, e ∈ (b.newEdge u v).elist ↔ e ∈ b.elist ∨ e = b.ne := fun e => by simp [BRep.newEdge]
  have hsub : ∀ i ∈ b.elist, i ∈ (b.newEdge u v).elist := fun i hi => (hm i).2 (Or.inl hi)
  refine ⟨⟨h.vnodup, ?_, h.vlt, ?_, ?_, ?_, h.corner, ?_⟩, ⟨hp.verts, ?_⟩,
    ⟨fun _ h => h, fun _ _ => rfl, hsub, hold, rfl⟩, (hm _).2 (Or.inr rfl), hnew⟩
  · show (b.elist ++ [b.ne]).Nodup
    rw [List.nodup_append]
    exact ⟨h.enodup, by simp, fun x hx y hy => by
      rw [List.mem_singleton] at hy; subst hy; exact fun h' => hn (h' ▸ hx)⟩
  · intro e he
    show e < b.ne + 1
    rcases (hm e).1 he with he | rfl
    · have := h.elt e he; omega
    · omega
  · intro e he
    rcases (hm e).1 he with he | rfl
    · rw [hold e he]; exact h.ends e he
    · rw [hnew]; exact ⟨hu, hv⟩
  · intro e he
    rcases (hm e).1 he with he | rfl
    · rw [hold e he]; exact h.nocut e he
    · rw [hnew]
  · intro f hf i
    obtain ⟨h1, h2⟩ := h.side f hf i
    exact ⟨hsub _ h1, by rw [hold _ h1]; exact h2⟩
  · intro e he e' he' hs
    rcases (hm e).1 he with he | rfl <;> rcases (hm e').1 he' with he' | rfl
    · rw [hold e he, hold e' he'] at hs; exact hp.edges e he e' he' hs
    · rw [hold e he, hnew] at hs; exact absurd hs (hw e he)
    · rw [hold e' he', hnew] at hs; exact absurd (samePair_comm (e := ⟨u, v, none⟩) hs) (hw e' he')
    · rfl

theorem edgeReg_ok {τ : ℝ} {b : BRep} (h : Sound b) (hp : Distinct τ b) {u v : ℕ} (hu : u ∈ b.vlist)
    (hv : v ∈ b.vlist) :
    Sound (b.edgeReg u v).1 ∧ Distinct τ (b.edgeReg u v).1 ∧ Ext b (b.edgeReg u v).1 ∧
      (b.edgeReg u v).2 ∈ (b.edgeReg u v).1.elist ∧
      SamePair ((b.edgeReg u v).1.edge (b.edgeReg u v).2) u v ∧
      (∀ e ∈ (b.edgeReg u v).1.elist, e ∈ b.elist ∨ e = (b.edgeReg u v).2) ∧
      (b.edgeReg u v).1.vlist = b.vlist := by
  unfold edgeReg
  split
  · rename_i e he
    obtain ⟨hm, hs⟩ := edgeFind_some he
    exact ⟨h, hp, .refl b, hm, hs, fun j hj => Or.inl hj, rfl⟩
  · rename_i he
    obtain ⟨h1, h2, h3, h4, h5⟩ := newEdge_ok h hp hu hv (edgeFind_none he)
    refine ⟨h1, h2, h3, h4, by rw [h5]; exact Or.inl ⟨rfl, rfl⟩, ?_, rfl⟩
    intro j hj
    rcases List.mem_append.1 (show j ∈ b.elist ++ [b.ne] from hj) with hj | hj
    · exact Or.inl hj
    · rw [List.mem_singleton] at hj; exact Or.inr hj

theorem Ext.corners {a b : BRep} (h : Ext a b) (s : Sound a) {f : BFace} (hf : f ∈ a.flist) :
    corners b f = corners a f := by
  simp only [Spec.corners, h.vert _ (s.corner f hf _)]

theorem faceInsert_ok {τ : ℝ} (hτ : 0 ≤ τ) {b : BRep} (h : Sound b) (hp : Distinct τ b) (hu : Used b)
    (q0 q1 q2 : Vec3 ℝ) :
    Sound (b.faceInsert τ q0 q1 q2) ∧ Distinct τ (b.faceInsert τ q0 q1 q2) ∧ Used (b.faceInsert τ q0 q1 q2) ∧
      (∃ f, (b.faceInsert τ q0 q1 q2).flist = b.flist ++ [f] ∧
        NearTri τ (corners (b.faceInsert τ q0 q1 q2) f) (q0, q1, q2)) ∧
      (∀ f ∈ b.flist, corners (b.faceInsert τ q0 q1 q2) f = corners b f) ∧
      (∀ i ∈ (b.faceInsert τ q0 q1 q2).vlist, (∃ j ∈ b.vlist, (b.faceInsert τ q0 q1 q2).pos i = b.pos j) ∨
        (b.faceInsert τ q0 q1 q2).pos i = q0 ∨ (b.faceInsert τ q0 q1 q2).pos i = q1 ∨
        (b.faceInsert τ q0 q1 q2).pos i = q2) := by
  obtain ⟨s0, p0, x0, m0, n0, c0, l0⟩ := vertReg_ok hτ h hp q0
  obtain ⟨s1, p1, x1, m1, n1, c1, l1⟩ := vertReg_ok hτ s0 p0 q1
  obtain ⟨s2, p2, x2, m2, n2, c2, l2⟩ := vertReg_ok hτ s1 p1 q2
  set r0 := b.vertReg τ q0 with hr0
  set r1 := r0.1.vertReg τ q1 with hr1
  set r2 := r1.1.vertReg τ q2 with hr2
  have m0' : r0.2 ∈ r2.1.vlist := x2.vlist _ (x1.vlist _ m0)
  have m1' : r1.2 ∈ r2.1.vlist := x2.vlist _ m1
  obtain ⟨t0, u0, y0, k0, a0, d0, v0⟩ := edgeReg_ok s2 p2 m1' m2
  set w0 := r2.1.edgeReg r1.2 r2.2 with hw0
  obtain ⟨t1, u1, y1, k1, a1, d1, v1⟩ := edgeReg_ok t0 u0 (y0.vlist _ m2) (y0.vlist _ m0')
  set w1 := w0.1.edgeReg r2.2 r0.2 with hw1
  obtain ⟨t2, u2, y2, k2, a2, d2, v2⟩ := edgeReg_ok t1 u1 (y1.vlist _ (y0.vlist _ m0')) (y1.vlist _ (y0.vlist _ m1'))
  set w2 := w1.1.edgeReg r0.2 r1.2 with hw2
  have ext : Ext b w2.1 := ((x0.trans x1).trans x2).trans ((y0.trans y1).trans y2)
  have eq : b.faceInsert τ q0 q1 q2 =
      { w2.1 with flist := w2.1.flist ++ [⟨![r0.2, r1.2, r2.2], ![w0.2, w1.2, w2.2]⟩] } := rfl
  clear_value w2 w1 w0 r2 r1 r0
  have fl : w2.1.flist = b.flist := ext.flist
  have vl : w2.1.vlist = r2.1.vlist := v2.trans (v1.trans v0)
  have y : Ext r2.1 w2.1 := (y0.trans y1).trans y2
  rw [eq]
  refine ⟨⟨t2.vnodup, t2.enodup, t2.vlt, t2.elt, t2.ends, t2.nocut, ?_, ?_⟩, ⟨u2.verts, u2.edges⟩, ⟨?_, ?_⟩,
    ⟨_, by rw [fl], ?_⟩, ?_, ?_⟩
  · intro f hf i
    rcases List.mem_append.1 hf with hf | hf
    · exact t2.corner f hf i
    · rw [List.mem_singleton] at hf; subst hf
      show _ ∈ w2.1.vlist
      rw [vl]; fin_cases i
      exacts [m0', m1', m2]
  · intro f hf i
    rcases List.mem_append.1 hf with hf | hf
    · exact t2.side f hf i
    · rw [List.mem_singleton] at hf; subst hf
      fin_cases i
      · refine ⟨y2.elist _ (y1.elist _ k0), ?_⟩
        show SamePair (w2.1.edge w0.2) r1.2 r2.2
        rw [y2.edge _ (y1.elist _ k0), y1.edge _ k0]; exact a0
      · refine ⟨y2.elist _ k1, ?_⟩
        show SamePair (w2.1.edge w1.2) r2.2 r0.2
        rw [y2.edge _ k1]; exact a1
      · exact ⟨k2, a2⟩
  · intro i hi
    have hi : i ∈ r2.1.vlist := by rw [← vl]; exact hi
    have last : ∀ j : Fin 3, (⟨![r0.2, r1.2, r2.2], ![w0.2, w1.2, w2.2]⟩ : BFace).v j = i →
        ∃ f ∈ w2.1.flist ++ [⟨![r0.2, r1.2, r2.2], ![w0.2, w1.2, w2.2]⟩], ∃ j, f.v j = i := fun j hj =>
      ⟨_, List.mem_append_right _ (by simp), j, hj⟩
    rcases c2 i hi with hi | ⟨hi, _⟩
    · rcases c1 i hi with hi | ⟨hi, _⟩
      · rcases c0 i hi with hi | ⟨hi, _⟩
        · obtain ⟨f, hf, j, hj⟩ := hu.verts i hi
          exact ⟨f, List.mem_append_left _ (fl ▸ hf), j, hj⟩
        · exact last 0 hi.symm
      · exact last 1 hi.symm
    · exact last 2 hi.symm
  · intro i hi
    have last : ∀ j : Fin 3, (⟨![r0.2, r1.2, r2.2], ![w0.2, w1.2, w2.2]⟩ : BFace).e j = i →
        ∃ f ∈ w2.1.flist ++ [⟨![r0.2, r1.2, r2.2], ![w0.2, w1.2, w2.2]⟩], ∃ j, f.e j = i := fun j hj =>
      ⟨_, List.mem_append_right _ (by simp), j, hj⟩
    rcases d2 i hi with hi | hi
    · rcases d1 i hi with hi | hi
      · rcases d0 i hi with hi | hi
        · rw [l2, l1, l0] at hi
          obtain ⟨f, hf, j, hj⟩ := hu.edges i hi
          exact ⟨f, List.mem_append_left _ (fl ▸ hf), j, hj⟩
        · exact last 0 hi.symm
      · exact last 1 hi.symm
    · exact last 2 hi.symm
  · refine ⟨?_, ?_, ?_⟩
    · show Near τ (w2.1.pos r0.2) q0
      rw [y.pos m0', x2.pos (x1.vlist _ m0), x1.pos m0]; exact n0
    · show Near τ (w2.1.pos r1.2) q1
      rw [y.pos m1', x2.pos m1]; exact n1
    · show Near τ (w2.1.pos r2.2) q2
      rw [y.pos m2]; exact n2
  · intro f hf
    exact ext.corners h hf
  · intro i hi
    have hi : i ∈ r2.1.vlist := by rw [← vl]; exact hi
    have e2 : w2.1.pos i = r2.1.pos i := y.pos hi
    show (∃ j ∈ b.vlist, w2.1.pos i = b.pos j) ∨ w2.1.pos i = q0 ∨ w2.1.pos i = q1 ∨ w2.1.pos i = q2
    rw [e2]
    rcases c2 i hi with hi | ⟨_, hi⟩
    · rw [x2.pos hi]
      rcases c1 i hi with hi | ⟨_, hi⟩
      · rw [x1.pos hi]
        rcases c0 i hi with hi | ⟨_, hi⟩
        · rw [x0.pos hi]; exact Or.inl ⟨i, hi, rfl⟩
        · exact Or.inr (Or.inl hi)
      · exact Or.inr (Or.inr (Or.inl hi))
    · exact Or.inr (Or.inr (Or.inr hi))

theorem empty_ok (τ : ℝ) : Sound empty ∧ Distinct τ empty ∧ Used empty := by
  refine ⟨⟨?_, ?_, ?_, ?_, ?_, ?_, ?_, ?_⟩, ⟨?_, ?_⟩, ⟨?_, ?_⟩⟩ <;> simp [empty]

/-- The corner points of a face of a polyhedron. -/
def facePt (ph : PH ℝ) (f : Face ℝ) : Vec3 ℝ × Vec3 ℝ × Vec3 ℝ := (ph.vert f.i0, ph.vert f.i1, ph.vert f.i2)

theorem insertFaces_ok {τ : ℝ} (hτ : 0 ≤ τ) (ph : PH ℝ) (fs : List (Face ℝ)) :
    Sound (insertFaces τ ph fs) ∧ Distinct τ (insertFaces τ ph fs) ∧ Used (insertFaces τ ph fs) ∧
      List.Forall₂ (NearTri τ) ((insertFaces τ ph fs).flist.map (corners (insertFaces τ ph fs)))
        (fs.map (facePt ph)) ∧
      ∀ i ∈ (insertFaces τ ph fs).vlist, ∃ f ∈ fs, (insertFaces τ ph fs).pos i = ph.vert f.i0 ∨
        (insertFaces τ ph fs).pos i = ph.vert f.i1 ∨ (insertFaces τ ph fs).pos i = ph.vert f.i2 := by
  induction fs using List.reverseRecOn with
  | nil =>
    obtain ⟨h1, h2, h3⟩ := empty_ok τ
    exact ⟨h1, h2, h3, List.Forall₂.nil, by simp [insertFaces, empty]⟩
  | append_singleton fs f ih =>
    obtain ⟨h1, h2, h3, h4, h5⟩ := ih
    have e : insertFaces τ ph (fs ++ [f]) =
        (insertFaces τ ph fs).faceInsert τ (ph.vert f.i0) (ph.vert f.i1) (ph.vert f.i2) := by
      simp only [insertFaces, List.foldl_append, List.foldl_cons, List.foldl_nil]
    obtain ⟨k1, k2, k3, ⟨g, hg, hn⟩, k5, k6⟩ := faceInsert_ok hτ h1 h2 h3 (ph.vert f.i0) (ph.vert f.i1) (ph.vert f.i2)
    rw [e]
    refine ⟨k1, k2, k3, ?_, ?_⟩
    · rw [hg, List.map_append, List.map_append]
      refine List.rel_append ?_ ?_
      · rw [List.map_congr_left k5]; exact h4
      · exact List.Forall₂.cons hn List.Forall₂.nil
    · intro i hi
      rcases k6 i hi with ⟨j, hj, ej⟩ | hq
      · obtain ⟨k, hk, hk'⟩ := h5 j hj
        exact ⟨k, by simp [hk], by rw [ej]; exact hk'⟩
      · exact ⟨f, by simp, hq⟩

/-- Conversion to a polyhedron. -/
theorem toPH_ok (τ : ℝ) {b : BRep} (h : ∀ f ∈ b.flist, ∀ i, f.v i ∈ b.vlist) :
    ∃ ph, b.toPH τ = some ph ∧ ph.nv = b.vlist.length ∧ Valid ph ∧ facePts ph = b.flist.map (corners b) ∧
      (∀ f ∈ ph.face, f.norm = (Tri3.create τ (ph.vert f.i0) (ph.vert f.i1) (ph.vert f.i2)).2.norm) ∧
      (List.range ph.nv).map ph.vert = b.vlist.map b.pos := by
  have key : ∀ i ∈ b.vlist, b.pos (b.vlist.getD (b.vlist.idxOf i) 0) = b.pos i := fun i hi => by
    rw [List.getD_eq_getElem?_getD, List.getElem?_eq_getElem (List.idxOf_lt_length_iff.2 hi),
      List.getElem_idxOf]; rfl
  refine ⟨_, if_pos h, rfl, ?_, ?_, ?_, ?_⟩
  · intro f hf
    obtain ⟨g, hg, rfl⟩ := List.mem_map.1 hf
    exact ⟨List.idxOf_lt_length_iff.2 (h g hg 0), List.idxOf_lt_length_iff.2 (h g hg 1),
      List.idxOf_lt_length_iff.2 (h g hg 2)⟩
  · simp only [facePts, List.map_map]
    refine List.map_congr_left fun f hf => ?_
    simp only [Function.comp, toFace, corners]
    rw [key _ (h f hf 0), key _ (h f hf 1), key _ (h f hf 2)]; rfl
  · intro f hf
    obtain ⟨g, hg, rfl⟩ := List.mem_map.1 hf
    simp only [toFace]
    rw [key _ (h g hg 0), key _ (h g hg 1), key _ (h g hg 2)]
  · apply List.ext_getElem
    · simp
    · intro n h1 h2
      simp only [List.length_map, List.length_range] at h1
      simp [List.getElem?_eq_getElem h1]

end BRep
end Zeo

import Verif.Lemmas.BRepGeom

/-! # Truncation of a boundary representation: pointers -/

namespace Zeo
open Spec
namespace BRep

theorem SamePair.symm {e : BEdge} {a c : ℕ} (h : SamePair e a c) : SamePair e c a := h.elim Or.inr Or.inl

/-- Corners of a face as a function. -/
noncomputable def cp (b : BRep) (f : BFace) : Fin 3 → Vec3 ℝ := fun i => b.pos (f.v i)
/-- Heights of the corners of a face. -/
noncomputable def cd (b : BRep) (f : BFace) : Fin 3 → ℝ := fun i => b.dist (f.v i)

/-- The state between the cutting of the edges and the rebuilding of the faces. -/
structure Ready (b : BRep) : Prop where
  vnodup : b.vlist.Nodup
  enodup : b.elist.Nodup
  vlt : ∀ i ∈ b.vlist, i < b.nv
  elt : ∀ e ∈ b.elist, e < b.ne
  ends : ∀ e ∈ b.elist, (b.edge e).v0 ∈ b.vlist ∧ (b.edge e).v1 ∈ b.vlist
  cut : ∀ e ∈ b.elist, b.dist (b.edge e).v0 * b.dist (b.edge e).v1 < 0 → ∃ n s, (b.edge e).x = some n ∧
    n ∈ b.vlist ∧ b.dist n = 0 ∧ 0 < s ∧ s < 1 ∧
    (1 - s) * b.dist (b.edge e).v0 + s * b.dist (b.edge e).v1 = 0 ∧
    b.pos n = lerp s (b.pos (b.edge e).v0) (b.pos (b.edge e).v1)
  nocut : ∀ e ∈ b.elist, ¬ b.dist (b.edge e).v0 * b.dist (b.edge e).v1 < 0 → (b.edge e).x = none

/-- A face whose pointers are as they must be. -/
def Sides (b : BRep) (f : BFace) : Prop :=
  ∀ i, f.v i ∈ b.vlist ∧ f.e i ∈ b.elist ∧ SamePair (b.edge (f.e i)) (f.v (i + 1)) (f.v (i + 2))

/-- A face whose pointers will be as they must be after the shrinking of the edges. -/
def Post (b : BRep) (f : BFace) : Prop :=
  ∀ i, f.v i ∈ b.vlist ∧ f.e i ∈ b.elist ∧ SamePair (b.shrinkEdge (b.edge (f.e i))) (f.v (i + 1)) (f.v (i + 2))

/-- Growth of the edge list. -/
structure Grow (b b' : BRep) : Prop where
  vert : b'.vert = b.vert
  vlist : b'.vlist = b.vlist
  nv : b'.nv = b.nv
  flist : b'.flist = b.flist
  elist : ∀ e ∈ b.elist, e ∈ b'.elist
  edge : ∀ e ∈ b.elist, b'.edge e = b.edge e

theorem Grow.refl (b : BRep) : Grow b b := ⟨rfl, rfl, rfl, rfl, fun _ h => h, fun _ _ => rfl⟩
theorem Grow.trans {a b c : BRep} (h : Grow a b) (k : Grow b c) : Grow a c :=
  ⟨k.vert.trans h.vert, k.vlist.trans h.vlist, k.nv.trans h.nv, k.flist.trans h.flist,
   fun e he => k.elist e (h.elist e he), fun e he => (k.edge e (h.elist e he)).trans (h.edge e he)⟩
theorem Grow.pos {a b : BRep} (h : Grow a b) (i : ℕ) : b.pos i = a.pos i := by simp only [BRep.pos, h.vert]
theorem Grow.dist {a b : BRep} (h : Grow a b) (i : ℕ) : b.dist i = a.dist i := by simp only [BRep.dist, h.vert]
theorem Grow.shrink {a b : BRep} (h : Grow a b) (e : BEdge) : b.shrinkEdge e = a.shrinkEdge e := by
  simp only [shrinkEdge, h.dist]
theorem Grow.cp {a b : BRep} (h : Grow a b) (f : BFace) : b.cp f = a.cp f := funext fun i => h.pos _
theorem Grow.cd {a b : BRep} (h : Grow a b) (f : BFace) : b.cd f = a.cd f := funext fun i => h.dist _
theorem Grow.sides {a b : BRep} (h : Grow a b) {f : BFace} (k : Sides a f) : Sides b f := fun i => by
  obtain ⟨k1, k2, k3⟩ := k i
  exact ⟨h.vlist ▸ k1, h.elist _ k2, by rw [h.edge _ k2]; exact k3⟩
theorem Grow.post {a b : BRep} (h : Grow a b) {f : BFace} (k : Post a f) : Post b f := fun i => by
  obtain ⟨k1, k2, k3⟩ := k i
  exact ⟨h.vlist ▸ k1, h.elist _ k2, by rw [h.edge _ k2, h.shrink]; exact k3⟩

/-- A new edge with an end on the plane. -/
theorem Ready.newEdge {b : BRep} (h : Ready b) {a c : ℕ} (ha : a ∈ b.vlist) (hc : c ∈ b.vlist)
    (hz : b.dist a * b.dist c = 0) : Ready (b.newEdge a c) ∧ Grow b (b.newEdge a c) ∧
      b.ne ∈ (b.newEdge a c).elist ∧ (b.newEdge a c).edge b.ne = ⟨a, c, none⟩ := by
  have hn : b.ne ∉ b.elist := fun hm => lt_irrefl _ (h.elt _ hm)
  have hold : ∀ e ∈ b.elist, (b.newEdge a c).edge e = b.edge e := fun e he =>
    Function.update_of_ne (show e ≠ b.ne from fun h' => hn (h' ▸ he)) _ _
  have hnew : (b.newEdge a c).edge b.ne = ⟨a, c, none⟩ := Function.update_self _ _ _
  have hm : ∀ e, e ∈ (b.newEdge a c).elist ↔ e ∈ b.elist ∨ e = b.ne := fun e => by simp [BRep.newEdge]
  have hd : ∀ i, (b.newEdge a c).dist i = b.dist i := fun _ => rfl
  have hp : ∀ i, (b.newEdge a c).pos i = b.pos i := fun _ => rfl
  refine ⟨⟨h.vnodup, ?_, h.vlt, ?_, ?_, ?_, ?_⟩, ⟨rfl, rfl, rfl, rfl, fun e he => (hm e).2 (Or.inl he), hold⟩,
    (hm _).2 (Or.inr rfl), hnew⟩
  · show (b.elist ++ [b.ne]).Nodup
    rw [List.nodup_append]
    exact ⟨h.enodup, by simp, fun x hx y hy => by
      rw [List.mem_singleton] at hy; subst hy; exact fun h' => hn (h' ▸ hx)⟩
  · intro e he
    show e < b.ne + 1
    rcases (hm e).1 he with he | rfl
    · have := h.elt e he; omega
    · omega
  · intro e he
    rcases (hm e).1 he with he | rfl
    · rw [hold e he]; exact h.ends e he
    · rw [hnew]; exact ⟨ha, hc⟩
  · intro e he hneg
    rcases (hm e).1 he with he | rfl
    · rw [hold e he] at hneg ⊢; exact h.cut e he hneg
    · rw [hnew] at hneg; exact absurd hneg (by rw [hd, hd, hz]; exact lt_irrefl _)
  · intro e he hneg
    rcases (hm e).1 he with he | rfl
    · rw [hold e he] at hneg ⊢; exact h.nocut e he hneg
    · rw [hnew]

/-- The cutting point of an edge that crosses the plane. -/
theorem Ready.point {b : BRep} (h : Ready b) {e a c : ℕ} (he : e ∈ b.elist) (hp : SamePair (b.edge e) a c)
    (ha : 0 < b.dist a) (hc : b.dist c < 0) : ∃ n s, (b.edge e).x = some n ∧ n ∈ b.vlist ∧ b.dist n = 0 ∧
      0 < s ∧ s < 1 ∧ (1 - s) * b.dist a + s * b.dist c = 0 ∧ b.pos n = lerp s (b.pos a) (b.pos c) ∧
      SamePair (b.shrinkEdge (b.edge e)) n c := by
  rcases hp with ⟨h0, h1⟩ | ⟨h0, h1⟩
  · obtain ⟨n, s, hx, hn, hd, s0, s1, hs, hpos⟩ := h.cut e he (by rw [h0, h1]; exact mul_neg_of_pos_of_neg ha hc)
    rw [h0, h1] at hs hpos
    refine ⟨n, s, hx, hn, hd, s0, s1, hs, hpos, Or.inl ?_⟩
    simp only [shrinkEdge, hx, h0, if_pos ha, h1, and_self]
  · obtain ⟨n, s, hx, hn, hd, s0, s1, hs, hpos⟩ := h.cut e he (by rw [h0, h1]; exact mul_neg_of_neg_of_pos hc ha)
    rw [h0, h1] at hs hpos
    refine ⟨n, 1 - s, hx, hn, hd, by linarith, by linarith, by linarith, ?_, Or.inr ?_⟩
    · rw [hpos]; simp only [lerp, comb, Vec3.mk.injEq]; refine ⟨?_, ?_, ?_⟩ <;> ring
    · simp only [shrinkEdge, hx, h0, if_neg (not_lt.2 hc.le), and_self]

theorem lerp_swap (s : ℝ) (P Q : Vec3 ℝ) : lerp s P Q = lerp (1 - s) Q P := by
  simp only [lerp, comb, Vec3.mk.injEq]; refine ⟨?_, ?_, ?_⟩ <;> ring

/-- An edge that does not cross the plane. -/
theorem Ready.uncut {b : BRep} (h : Ready b) {e a c : ℕ} (he : e ∈ b.elist) (hp : SamePair (b.edge e) a c)
    (hd : 0 ≤ b.dist a * b.dist c) : b.shrinkEdge (b.edge e) = b.edge e := by
  have : (b.edge e).x = none := by
    refine h.nocut e he ?_
    rcases hp with ⟨h0, h1⟩ | ⟨h0, h1⟩
    · rw [h0, h1]; exact not_lt.2 hd
    · rw [h0, h1, mul_comm]; exact not_lt.2 hd
  simp only [shrinkEdge, this]

theorem side_perm {b : BRep} {f : BFace} (hf : Sides b f) {i j k : Fin 3} (h : Perm3 i j k) :
    SamePair (b.edge (f.e i)) (f.v j) (f.v k) := by
  obtain ⟨h1, h2, h3⟩ := h
  have := (hf i).2.2
  fin_cases i <;> fin_cases j <;> fin_cases k <;> simp at h1 h2 h3 <;>
    first | exact this | exact SamePair.symm this

theorem post_perm {b : BRep} {g : BFace} {i j k : Fin 3} (h : Perm3 i j k)
    (hi : g.v i ∈ b.vlist ∧ g.e i ∈ b.elist ∧ SamePair (b.shrinkEdge (b.edge (g.e i))) (g.v j) (g.v k))
    (hj : g.v j ∈ b.vlist ∧ g.e j ∈ b.elist ∧ SamePair (b.shrinkEdge (b.edge (g.e j))) (g.v i) (g.v k))
    (hk : g.v k ∈ b.vlist ∧ g.e k ∈ b.elist ∧ SamePair (b.shrinkEdge (b.edge (g.e k))) (g.v i) (g.v j)) :
    Post b g := by
  obtain ⟨h1, h2, h3⟩ := h
  intro l
  fin_cases i <;> fin_cases j <;> fin_cases k <;> simp at h1 h2 h3 <;> fin_cases l <;>
    first
    | exact hi | exact hj | exact hk
    | exact ⟨hi.1, hi.2.1, SamePair.symm hi.2.2⟩ | exact ⟨hj.1, hj.2.1, SamePair.symm hj.2.2⟩
    | exact ⟨hk.1, hk.2.1, SamePair.symm hk.2.2⟩

/-- What the rebuilding of one face achieves. -/
structure Rebuilt (b : BRep) (f : BFace) (b' : BRep) (out : List BFace) : Prop where
  ready : Ready b'
  grow : Grow b b'
  post : ∀ g ∈ out, Post b' g
  clips : Clips (b.cp f) (b.cd f) (out.map b.cp)

theorem post_of_sides {b : BRep} (h : Ready b) {f : BFace} (hf : Sides b f)
    (hd : ∀ i j, 0 ≤ b.dist (f.v i) * b.dist (f.v j)) : Post b f := fun i => by
  obtain ⟨h1, h2, h3⟩ := hf i
  exact ⟨h1, h2, by rw [h.uncut h2 h3 (hd _ _)]; exact h3⟩

theorem faceA_ok {b : BRep} (h : Ready b) {f : BFace} (hf : Sides b f) {i1 i2 i3 : Fin 3}
    (hp : Perm3 i1 i2 i3) (hc : i2 = i1 + 1) (d1 : 0 < b.dist (f.v i1)) (d2 : b.dist (f.v i2) < 0)
    (d3 : b.dist (f.v i3) < 0) :
    ∃ b' n o, b.faceA f i1 i2 i3 = some (b', n, o) ∧ Rebuilt b f b' (n ++ o) := by
  obtain ⟨p12, p23, p13⟩ := hp
  obtain ⟨x2, s, hx2, m2, z2, s0, s1, hs, ps, sp2⟩ := h.point (hf i2).2.1
    (side_perm hf ⟨p12.symm, p13, p23⟩) d1 d3
  obtain ⟨x3, t, hx3, m3, z3, t0, t1, ht, pt, sp3⟩ := h.point (hf i3).2.1
    (side_perm hf ⟨p13.symm, p12, p23.symm⟩) d1 d2
  obtain ⟨r4, g4, me4, ed4⟩ := h.newEdge m2 m3 (by rw [z2, z3]; ring)
  obtain ⟨r5, g5, me5, ed5⟩ := r4.newEdge (a := x2) (c := f.v i2) (by rw [g4.vlist]; exact m2)
    (by rw [g4.vlist]; exact (hf i2).1) (by rw [g4.dist, g4.dist, z2]; ring)
  have g := g4.trans g5
  refine ⟨_, _, _, by simp only [faceA, hx2, hx3, Option.bind_eq_bind, Option.bind_some]; rfl, r5, g, ?_, ?_⟩
  · have sh4 : ((b.newEdge x2 x3).newEdge x2 (f.v i2)).shrinkEdge
        (((b.newEdge x2 x3).newEdge x2 (f.v i2)).edge b.ne) = ⟨x2, x3, none⟩ := by
      rw [g5.edge _ me4, ed4]; rfl
    have sh5 : ((b.newEdge x2 x3).newEdge x2 (f.v i2)).shrinkEdge
        (((b.newEdge x2 x3).newEdge x2 (f.v i2)).edge (b.newEdge x2 x3).ne) = ⟨x2, f.v i2, none⟩ := by
      rw [ed5]; rfl
    have old : ∀ i, ((b.newEdge x2 x3).newEdge x2 (f.v i2)).shrinkEdge
        (((b.newEdge x2 x3).newEdge x2 (f.v i2)).edge (f.e i)) = b.shrinkEdge (b.edge (f.e i)) := fun i => by
      rw [g.edge _ (hf i).2.1, g.shrink]
    intro k hk
    simp only [List.cons_append, List.nil_append, List.mem_cons, List.not_mem_nil, or_false] at hk
    rcases hk with rfl | rfl
    · refine post_perm (i := 0) (j := 1) (k := 2) ⟨by decide, by decide, by decide⟩ ?_ ?_ ?_
      · exact ⟨g.vlist ▸ (hf i2).1, g5.elist _ me4, by
          show SamePair (shrinkEdge _ (edge _ b.ne)) x2 x3
          rw [sh4]; exact Or.inl ⟨rfl, rfl⟩⟩
      · exact ⟨g.vlist ▸ m2, g.elist _ (hf i3).2.1, by
          show SamePair (shrinkEdge _ (edge _ (f.e i3))) (f.v i2) x3
          rw [old]; exact SamePair.symm sp3⟩
      · exact ⟨g.vlist ▸ m3, me5, by
          show SamePair (shrinkEdge _ (edge _ (b.newEdge x2 x3).ne)) (f.v i2) x2
          rw [sh5]; exact Or.inr ⟨rfl, rfl⟩⟩
    · refine post_perm ⟨p12, p23, p13⟩ ?_ ?_ ?_
      · refine ⟨?_, ?_, ?_⟩
        · simpa using g.vlist ▸ m2
        · simpa [p13] using g.elist _ (hf i1).2.1
        · simp only [Function.update_of_ne p13, Function.update_of_ne p12.symm, Function.update_of_ne p13.symm]
          rw [old, h.uncut (hf i1).2.1 (side_perm hf ⟨p12, p23, p13⟩) (mul_pos_of_neg_of_neg d2 d3).le]
          exact side_perm hf ⟨p12, p23, p13⟩
      · refine ⟨?_, ?_, ?_⟩
        · simpa [p12.symm] using g.vlist ▸ (hf i2).1
        · simpa [p23] using g.elist _ (hf i2).2.1
        · simp only [Function.update_of_ne p23, Function.update_self, Function.update_of_ne p13.symm]
          rw [old]; exact sp2
      · refine ⟨?_, ?_, ?_⟩
        · simpa [p13.symm] using g.vlist ▸ (hf i3).1
        · simpa using me5
        · simp only [Function.update_self, Function.update_of_ne p12.symm]
          rw [sh5]; exact Or.inl ⟨rfl, rfl⟩
  · simp only [List.cons_append, List.nil_append, List.map_cons, List.map_nil]
    refine clips_A ⟨p12, p23, p13⟩ hc (s := s) (t := t) d1 d2 d3 s0 s1 hs t0 t1 ht ?_ ?_ ?_ ?_ ?_ ?_
    · simp [cp, ps]
    · simp [cp, p12.symm]
    · simp [cp, p13.symm]
    · simp [cp]
    · simp [cp, ps]
    · simp [cp, pt]

theorem faceV_ok {b : BRep} (h : Ready b) {f : BFace} (hf : Sides b f) {i1 i2 i3 : Fin 3}
    (hp : Perm3 i1 i2 i3) (d1 : b.dist (f.v i1) < 0) (d2 : 0 < b.dist (f.v i2))
    (d3 : 0 < b.dist (f.v i3)) :
    ∃ b' n o, b.faceV f i1 i2 i3 = some (b', n, o) ∧ Rebuilt b f b' (n ++ o) := by
  obtain ⟨p12, p23, p13⟩ := hp
  obtain ⟨x2, s, hx2, m2, z2, s0, s1, hs, ps, sp2⟩ := h.point (hf i2).2.1
    (side_perm hf ⟨p23, p13.symm, p12.symm⟩) d3 d1
  obtain ⟨x3, t, hx3, m3, z3, t0, t1, ht, pt, sp3⟩ := h.point (hf i3).2.1
    (side_perm hf ⟨p23.symm, p12.symm, p13.symm⟩) d2 d1
  obtain ⟨r4, g, me4, ed4⟩ := h.newEdge m3 m2 (by rw [z2, z3]; ring)
  refine ⟨_, _, _, by simp only [faceV, hx2, hx3, Option.bind_eq_bind, Option.bind_some]; rfl, r4, g, ?_, ?_⟩
  · have sh4 : (b.newEdge x3 x2).shrinkEdge ((b.newEdge x3 x2).edge b.ne) = ⟨x3, x2, none⟩ := by
      rw [ed4]; rfl
    have old : ∀ i, (b.newEdge x3 x2).shrinkEdge ((b.newEdge x3 x2).edge (f.e i)) =
        b.shrinkEdge (b.edge (f.e i)) := fun i => by rw [g.edge _ (hf i).2.1, g.shrink]
    intro k hk
    simp only [List.nil_append, List.mem_cons, List.not_mem_nil, or_false] at hk
    subst hk
    refine post_perm ⟨p12, p23, p13⟩ ?_ ?_ ?_
    · refine ⟨?_, ?_, ?_⟩
      · simpa [p12, p13] using g.vlist ▸ (hf i1).1
      · simpa using me4
      · simp only [Function.update_self, Function.update_of_ne p23]
        rw [sh4]; exact Or.inl ⟨rfl, rfl⟩
    · refine ⟨?_, ?_, ?_⟩
      · simpa [p23] using g.vlist ▸ m3
      · simpa [p12.symm] using g.elist _ (hf i2).2.1
      · simp only [Function.update_self, Function.update_of_ne p12.symm, Function.update_of_ne p13,
          Function.update_of_ne p12]
        rw [old]; exact SamePair.symm sp2
    · refine ⟨?_, ?_, ?_⟩
      · simpa using g.vlist ▸ m2
      · simpa [p13.symm] using g.elist _ (hf i3).2.1
      · simp only [Function.update_self, Function.update_of_ne p13.symm, Function.update_of_ne p13,
          Function.update_of_ne p12, Function.update_of_ne p23]
        rw [old]; exact SamePair.symm sp3
  · simp only [List.nil_append, List.map_cons, List.map_nil]
    refine clips_V ⟨p12, p23, p13⟩ (s := 1 - s) (t := 1 - t) d1 (by linarith) (by linarith)
      (by simp only [cd]; linarith) (by linarith) (by linarith) (by simp only [cd]; linarith) ?_ ?_ ?_
    · simp [cp, p12, p13]
    · simp only [cp, Function.update_of_ne p23, Function.update_self, pt]; exact lerp_swap _ _ _
    · simp only [cp, Function.update_self, ps]; exact lerp_swap _ _ _

theorem faceE_ok {b : BRep} (h : Ready b) {f : BFace} (hf : Sides b f) {i1 i2 i3 : Fin 3}
    (hp : Perm3 i1 i2 i3) (d1 : b.dist (f.v i1) = 0) (d2 : b.dist (f.v i2) < 0)
    (d3 : 0 < b.dist (f.v i3)) :
    ∃ b' n o, b.faceE f i1 i2 i3 = some (b', n, o) ∧ Rebuilt b f b' (n ++ o) := by
  obtain ⟨p12, p23, p13⟩ := hp
  obtain ⟨x1, s, hx1, m1, z1, s0, s1, hs, ps, sp1⟩ := h.point (hf i1).2.1
    (side_perm hf ⟨p13, p23.symm, p12⟩) d3 d2
  obtain ⟨r4, g, me4, ed4⟩ := h.newEdge (hf i1).1 m1 (by rw [z1]; ring)
  refine ⟨_, _, _, by simp only [faceE, hx1, Option.bind_eq_bind, Option.bind_some]; rfl, r4, g, ?_, ?_⟩
  · have sh4 : (b.newEdge (f.v i1) x1).shrinkEdge ((b.newEdge (f.v i1) x1).edge b.ne) = ⟨f.v i1, x1, none⟩ := by
      rw [ed4]; rfl
    have old : ∀ i, (b.newEdge (f.v i1) x1).shrinkEdge ((b.newEdge (f.v i1) x1).edge (f.e i)) =
        b.shrinkEdge (b.edge (f.e i)) := fun i => by rw [g.edge _ (hf i).2.1, g.shrink]
    intro k hk
    simp only [List.nil_append, List.mem_cons, List.not_mem_nil, or_false] at hk
    subst hk
    refine post_perm ⟨p12, p23, p13⟩ ?_ ?_ ?_
    · refine ⟨?_, ?_, ?_⟩
      · simpa [p13] using g.vlist ▸ (hf i1).1
      · simpa [p12] using g.elist _ (hf i1).2.1
      · simp only [Function.update_self, Function.update_of_ne p12, Function.update_of_ne p23]
        rw [old]; exact SamePair.symm sp1
    · refine ⟨?_, ?_, ?_⟩
      · simpa [p23] using g.vlist ▸ (hf i2).1
      · simpa using me4
      · simp only [Function.update_self, Function.update_of_ne p13]
        rw [sh4]; exact Or.inl ⟨rfl, rfl⟩
    · refine ⟨?_, ?_, ?_⟩
      · simpa using g.vlist ▸ m1
      · simpa [p23.symm] using g.elist _ (hf i3).2.1
      · simp only [Function.update_of_ne p23.symm, Function.update_of_ne p13, Function.update_of_ne p23]
        rw [old, h.uncut (hf i3).2.1 (side_perm hf ⟨p13.symm, p12, p23.symm⟩) (by rw [d1]; simp)]
        exact side_perm hf ⟨p13.symm, p12, p23.symm⟩
  · simp only [List.nil_append, List.map_cons, List.map_nil]
    refine clips_E ⟨p12, p23, p13⟩ (s := 1 - s) d1 d2 (by linarith) (by linarith)
      (by simp only [cd]; linarith) ?_ ?_ ?_
    · simp [cp, p13]
    · simp [cp, p23]
    · simp only [cp, Function.update_self, ps]; exact lerp_swap _ _ _

theorem pat_neg {d : ℝ} (h : d < 0) : pat d = 3 := by simp [pat, h]
theorem pat_pos {d : ℝ} (h : 0 < d) : pat d = 1 := by simp [pat, h, not_lt.2 h.le]
theorem pat_zero {d : ℝ} (h : d = 0) : pat d = 0 := by simp [pat, h]

/-- Every face is dealt with. -/
theorem truncFace_ok {b : BRep} (h : Ready b) {f : BFace} (hf : Sides b f) :
    ∃ b' n o, b.truncFace f = some (b', n, o) ∧ Rebuilt b f b' (n ++ o) := by
  have drop : (∀ i, 0 ≤ b.dist (f.v i)) → Rebuilt b f b ([] ++ []) := fun hd =>
    ⟨h, .refl b, by simp, clips_drop hd⟩
  have keep : (∀ i, b.dist (f.v i) ≤ 0) → Rebuilt b f b ([] ++ [f]) := fun hd =>
    ⟨h, .refl b, fun g hg => by
      simp only [List.nil_append, List.mem_singleton] at hg; subst hg
      exact post_of_sides h hf fun i j => mul_nonneg_of_nonpos_of_nonpos (hd i) (hd j), clips_keep hd⟩
  have all : ∀ {p : Fin 3 → Prop}, p 0 → p 1 → p 2 → ∀ i, p i := fun h0 h1 h2 =>
    forall_perm (i1 := 0) (i2 := 1) (i3 := 2) ⟨by decide, by decide, by decide⟩ h0 h1 h2
  rcases lt_trichotomy (b.dist (f.v 0)) 0 with h0 | h0 | h0 <;>
  rcases lt_trichotomy (b.dist (f.v 1)) 0 with h1 | h1 | h1 <;>
  rcases lt_trichotomy (b.dist (f.v 2)) 0 with h2 | h2 | h2 <;>
  simp only [truncFace, pat_neg, pat_pos, pat_zero, h0, h1, h2] <;>
  first
  | exact ⟨_, _, _, rfl, keep (all (by first | exact h0.le | exact h0.ge)
      (by first | exact h1.le | exact h1.ge) (by first | exact h2.le | exact h2.ge))⟩
  | exact ⟨_, _, _, rfl, drop (all (by first | exact h0.le | exact h0.ge)
      (by first | exact h1.le | exact h1.ge) (by first | exact h2.le | exact h2.ge))⟩
  | exact faceA_ok h hf ⟨by decide, by decide, by decide⟩ (by decide) (by assumption) (by assumption) (by assumption)
  | exact faceV_ok h hf ⟨by decide, by decide, by decide⟩ (by assumption) (by assumption) (by assumption)
  | exact faceE_ok h hf ⟨by decide, by decide, by decide⟩ (by assumption) (by assumption) (by assumption)

end BRep
end Zeo

import Verif.Lemmas.BRepConv
import Mathlib.Tactic.Ring
import Mathlib.Algebra.BigOperators.Group.List.Basic

/-! # Truncation of a closed surface: the open edges lie in the cutting plane -/

namespace Zeo
open Spec
namespace BRep

/-- Circulation of a function of directed edges around a face. -/
def circ (w : ℕ → ℕ → ℤ) (g : BFace) : ℤ := w (g.v 0) (g.v 1) + w (g.v 1) (g.v 2) + w (g.v 2) (g.v 0)

/-- The function of directed edges induced on the uncut mesh; `X` gives the cutting points. -/
noncomputable def clipW (D : ℕ → ℝ) (X : ℕ → ℕ → ℕ) (w : ℕ → ℕ → ℤ) (u v : ℕ) : ℤ := by
  classical exact if D u ≤ 0 ∧ D v ≤ 0 then w u v else if 0 ≤ D u ∧ 0 ≤ D v then 0
    else if D u < 0 then w u (X u v) else w (X u v) v

theorem clipW_np {D : ℕ → ℝ} {X : ℕ → ℕ → ℕ} {w : ℕ → ℕ → ℤ} {u v : ℕ} (hu : D u < 0) (hv : 0 < D v) :
    clipW D X w u v = w u (X u v) := by
  unfold clipW; rw [if_neg (fun h => absurd h.2 (not_le.2 hv)), if_neg (fun h => absurd h.1 (not_le.2 hu)), if_pos hu]
theorem clipW_pn {D : ℕ → ℝ} {X : ℕ → ℕ → ℕ} {w : ℕ → ℕ → ℤ} {u v : ℕ} (hu : 0 < D u) (hv : D v < 0) :
    clipW D X w u v = w (X u v) v := by
  unfold clipW
  rw [if_neg (fun h => absurd h.1 (not_le.2 hu)), if_neg (fun h => absurd h.2 (not_le.2 hv)), if_neg (not_lt.2 hu.le)]
theorem clipW_low {D : ℕ → ℝ} {X : ℕ → ℕ → ℕ} {w : ℕ → ℕ → ℤ} {u v : ℕ} (hu : D u ≤ 0) (hv : D v ≤ 0) :
    clipW D X w u v = w u v := by unfold clipW; rw [if_pos ⟨hu, hv⟩]
theorem clipW_high {D : ℕ → ℝ} {X : ℕ → ℕ → ℕ} {w : ℕ → ℕ → ℤ} {u v : ℕ} (hw : D u = 0 → D v = 0 → w u v = 0)
    (hu : 0 ≤ D u) (hv : 0 ≤ D v) : clipW D X w u v = 0 := by
  unfold clipW
  split
  · rename_i h; exact hw (le_antisymm h.1 hu) (le_antisymm h.2 hv)
  · rw [if_pos ⟨hu, hv⟩]

theorem clipW_anti {D : ℕ → ℝ} {X : ℕ → ℕ → ℕ} {w : ℕ → ℕ → ℤ} (hw : ∀ u v, w u v = - w v u)
    (hX : ∀ u v, X u v = X v u) (u v : ℕ) : clipW D X w u v = - clipW D X w v u := by
  have hz : ∀ u, D u = 0 → D u = 0 → w u u = 0 := fun u _ _ => by have := hw u u; omega
  by_cases h1 : D u ≤ 0 ∧ D v ≤ 0
  · rw [clipW_low h1.1 h1.2, clipW_low h1.2 h1.1]; exact hw u v
  by_cases h2 : 0 ≤ D u ∧ 0 ≤ D v
  · have k1 : ¬ (D u = 0 ∧ D v = 0) := fun h => h1 ⟨h.1.le, h.2.le⟩
    rw [clipW_high (fun a b => absurd ⟨a, b⟩ k1) h2.1 h2.2, clipW_high (fun a b => absurd ⟨b, a⟩ k1) h2.2 h2.1]; rfl
  by_cases h3 : D u < 0
  · have h4 : 0 < D v := by by_contra h; exact h1 ⟨h3.le, not_lt.1 h⟩
    rw [clipW_np h3 h4, clipW_pn h4 h3, hX u v]; exact hw _ _
  · have h4 : D v < 0 := by by_contra h; exact h2 ⟨not_lt.1 h3, not_lt.1 h⟩
    have h5 : 0 < D u := by by_contra h; exact h1 ⟨not_lt.1 h, h4.le⟩
    rw [clipW_pn h5 h4, clipW_np h4 h5, hX u v]; exact hw _ _

theorem circ_perm {i1 i2 i3 : Fin 3} (h : Perm3 i1 i2 i3) : ∃ s : ℤ, (i2 = i1 + 1 → s = 1) ∧
    ∀ (w : ℕ → ℕ → ℤ), (∀ u v, w u v = - w v u) → ∀ g : BFace,
      circ w g = s * (w (g.v i1) (g.v i2) + w (g.v i2) (g.v i3) + w (g.v i3) (g.v i1)) := by
  obtain ⟨h1, h2, h3⟩ := h
  fin_cases i1 <;> fin_cases i2 <;> fin_cases i3 <;> simp at h1 h2 h3
  all_goals
    first
    | (refine ⟨1, fun _ => rfl, fun w hw g => ?_⟩
       simp only [circ, Fin.zero_eta, Fin.mk_one, Fin.reduceFinMk]; ring; done)
    | (refine ⟨-1, by decide, fun w hw g => ?_⟩
       simp only [circ, Fin.zero_eta, Fin.mk_one, Fin.reduceFinMk]
       have e0 := hw (g.v 0) (g.v 1)
       have e1 := hw (g.v 1) (g.v 2)
       have e2 := hw (g.v 2) (g.v 0)
       linarith)

/-- `X` gives the cutting points of the sides of a face. -/
def Points (b : BRep) (X : ℕ → ℕ → ℕ) (f : BFace) : Prop :=
  ∀ i n, (b.edge (f.e i)).x = some n → X (f.v (i + 1)) (f.v (i + 2)) = n

theorem points_perm {b : BRep} {X : ℕ → ℕ → ℕ} (hX : ∀ u v, X u v = X v u) {f : BFace} (h : Points b X f)
    {i j k : Fin 3} (hp : Perm3 i j k) {n : ℕ} (hn : (b.edge (f.e i)).x = some n) : X (f.v j) (f.v k) = n := by
  obtain ⟨h1, h2, h3⟩ := hp
  have := h i n hn
  fin_cases i <;> fin_cases j <;> fin_cases k <;> simp at h1 h2 h3 <;>
    first | exact this | exact (hX _ _).trans this

variable {w : ℕ → ℕ → ℤ}

theorem faceA_circ {b : BRep} (h : Ready b) (hw : ∀ u v, w u v = - w v u)
    (hz : ∀ u v, b.dist u = 0 → b.dist v = 0 → w u v = 0) {X : ℕ → ℕ → ℕ} (hX : ∀ u v, X u v = X v u)
    {f : BFace} (hf : Sides b f) (hP : Points b X f) {i1 i2 i3 : Fin 3}
    (hp : Perm3 i1 i2 i3) (hc : i2 = i1 + 1) (d1 : 0 < b.dist (f.v i1)) (d2 : b.dist (f.v i2) < 0)
    (d3 : b.dist (f.v i3) < 0) {b' : BRep} {n o : List BFace} (e : b.faceA f i1 i2 i3 = some (b', n, o)) :
    ((n ++ o).map (circ w)).sum = circ (clipW b.dist X w) f := by
  obtain ⟨p12, p23, p13⟩ := hp
  obtain ⟨x2, s, hx2, m2, z2, s0, s1, hs, ps, sp2⟩ := h.point (hf i2).2.1
    (side_perm hf ⟨p12.symm, p13, p23⟩) d1 d3
  obtain ⟨x3, t, hx3, m3, z3, t0, t1, ht, pt, sp3⟩ := h.point (hf i3).2.1
    (side_perm hf ⟨p13.symm, p12, p23.symm⟩) d1 d2
  have X2 := points_perm hX hP ⟨p12.symm, p13, p23⟩ hx2
  have X3 := points_perm hX hP ⟨p13.symm, p12, p23.symm⟩ hx3
  obtain ⟨sg, hsg, hcirc⟩ := circ_perm ⟨p12, p23, p13⟩
  have hsg := hsg hc
  subst hsg
  simp only [faceA, hx2, hx3, Option.bind_eq_bind, Option.bind_some, Option.pure_def, Option.some.injEq,
    Prod.mk.injEq] at e
  obtain ⟨_, rfl, rfl⟩ := e
  simp only [List.cons_append, List.nil_append, List.map_cons, List.map_nil, List.sum_cons, List.sum_nil]
  rw [hcirc _ (clipW_anti hw hX), clipW_pn d1 d2, clipW_low d2.le d3.le, clipW_np d3 d1, X3, hX, X2]
  have eT := hcirc w hw ⟨Function.update f.v i1 x2, Function.update f.e i3 (b.newEdge x2 x3).ne⟩
  simp only [Function.update_self, Function.update_of_ne p12.symm, Function.update_of_ne p13.symm] at eT
  rw [eT]
  simp only [circ, Matrix.cons_val_zero, Matrix.cons_val_one, Matrix.cons_val]
  have := hz x2 x3 z2 z3
  have := hw (f.v i2) x2
  linarith

theorem faceV_circ {b : BRep} (h : Ready b) (hw : ∀ u v, w u v = - w v u)
    (hz : ∀ u v, b.dist u = 0 → b.dist v = 0 → w u v = 0) {X : ℕ → ℕ → ℕ} (hX : ∀ u v, X u v = X v u)
    {f : BFace} (hf : Sides b f) (hP : Points b X f) {i1 i2 i3 : Fin 3}
    (hp : Perm3 i1 i2 i3) (d1 : b.dist (f.v i1) < 0) (d2 : 0 < b.dist (f.v i2))
    (d3 : 0 < b.dist (f.v i3)) {b' : BRep} {n o : List BFace} (e : b.faceV f i1 i2 i3 = some (b', n, o)) :
    ((n ++ o).map (circ w)).sum = circ (clipW b.dist X w) f := by
  obtain ⟨p12, p23, p13⟩ := hp
  obtain ⟨x2, s, hx2, m2, z2, s0, s1, hs, ps, sp2⟩ := h.point (hf i2).2.1
    (side_perm hf ⟨p23, p13.symm, p12.symm⟩) d3 d1
  obtain ⟨x3, t, hx3, m3, z3, t0, t1, ht, pt, sp3⟩ := h.point (hf i3).2.1
    (side_perm hf ⟨p23.symm, p12.symm, p13.symm⟩) d2 d1
  have X2 := points_perm hX hP ⟨p23, p13.symm, p12.symm⟩ hx2
  have X3 := points_perm hX hP ⟨p23.symm, p12.symm, p13.symm⟩ hx3
  obtain ⟨sg, hsg, hcirc⟩ := circ_perm ⟨p12, p23, p13⟩
  simp only [faceV, hx2, hx3, Option.bind_eq_bind, Option.bind_some, Option.pure_def, Option.some.injEq,
    Prod.mk.injEq] at e
  obtain ⟨_, rfl, rfl⟩ := e
  simp only [List.nil_append, List.map_cons, List.map_nil, List.sum_cons, List.sum_nil]
  rw [hcirc _ (clipW_anti hw hX), clipW_np d1 d2, clipW_high (hz _ _) d2.le d3.le, clipW_pn d3 d1, X2, hX, X3,
    hcirc w hw]
  simp only [Function.update_self, Function.update_of_ne p12, Function.update_of_ne p13,
    Function.update_of_ne p23]
  rw [hz x3 x2 z3 z2]; ring

theorem faceE_circ {b : BRep} (h : Ready b) (hw : ∀ u v, w u v = - w v u)
    (hz : ∀ u v, b.dist u = 0 → b.dist v = 0 → w u v = 0) {X : ℕ → ℕ → ℕ} (hX : ∀ u v, X u v = X v u)
    {f : BFace} (hf : Sides b f) (hP : Points b X f) {i1 i2 i3 : Fin 3}
    (hp : Perm3 i1 i2 i3) (d1 : b.dist (f.v i1) = 0) (d2 : b.dist (f.v i2) < 0)
    (d3 : 0 < b.dist (f.v i3)) {b' : BRep} {n o : List BFace} (e : b.faceE f i1 i2 i3 = some (b', n, o)) :
    ((n ++ o).map (circ w)).sum = circ (clipW b.dist X w) f := by
  obtain ⟨p12, p23, p13⟩ := hp
  obtain ⟨x1, s, hx1, m1, z1, s0, s1, hs, ps, sp1⟩ := h.point (hf i1).2.1
    (side_perm hf ⟨p13, p23.symm, p12⟩) d3 d2
  have X1 := points_perm hX hP ⟨p13, p23.symm, p12⟩ hx1
  obtain ⟨sg, hsg, hcirc⟩ := circ_perm ⟨p12, p23, p13⟩
  simp only [faceE, hx1, Option.bind_eq_bind, Option.bind_some, Option.pure_def, Option.some.injEq,
    Prod.mk.injEq] at e
  obtain ⟨_, rfl, rfl⟩ := e
  simp only [List.nil_append, List.map_cons, List.map_nil, List.sum_cons, List.sum_nil]
  rw [hcirc _ (clipW_anti hw hX), clipW_low d1.le d2.le, clipW_np d2 d3, clipW_high (hz _ _) d3.le d1.ge, hX, X1,
    hcirc w hw]
  simp only [Function.update_self, Function.update_of_ne p13, Function.update_of_ne p23]
  rw [hz x1 _ z1 d1]; ring

theorem truncFace_circ {b : BRep} (h : Ready b) (hw : ∀ u v, w u v = - w v u)
    (hz : ∀ u v, b.dist u = 0 → b.dist v = 0 → w u v = 0) {X : ℕ → ℕ → ℕ} (hX : ∀ u v, X u v = X v u)
    {f : BFace} (hf : Sides b f) (hP : Points b X f) {b' : BRep} {n o : List BFace}
    (e : b.truncFace f = some (b', n, o)) :
    ((n ++ o).map (circ w)).sum = circ (clipW b.dist X w) f := by
  have drop : (∀ i, 0 ≤ b.dist (f.v i)) → (b, ([] : List BFace), ([] : List BFace)) = (b', n, o) →
      ((n ++ o).map (circ w)).sum = circ (clipW b.dist X w) f := by
    intro hd he
    simp only [Prod.mk.injEq] at he
    obtain ⟨_, rfl, rfl⟩ := he
    simp only [List.nil_append, List.map_nil, List.sum_nil, circ]
    rw [clipW_high (hz _ _) (hd _) (hd _), clipW_high (hz _ _) (hd _) (hd _), clipW_high (hz _ _) (hd _) (hd _)]; rfl
  have keep : (∀ i, b.dist (f.v i) ≤ 0) → (b, ([] : List BFace), [f]) = (b', n, o) →
      ((n ++ o).map (circ w)).sum = circ (clipW b.dist X w) f := by
    intro hd he
    simp only [Prod.mk.injEq] at he
    obtain ⟨_, rfl, rfl⟩ := he
    simp only [List.nil_append, List.map_cons, List.map_nil, List.sum_cons, List.sum_nil, circ]
    rw [clipW_low (hd _) (hd _), clipW_low (hd _) (hd _), clipW_low (hd _) (hd _)]; ring
  have all : ∀ {p : Fin 3 → Prop}, p 0 → p 1 → p 2 → ∀ i, p i := fun h0 h1 h2 =>
    forall_perm (i1 := 0) (i2 := 1) (i3 := 2) ⟨by decide, by decide, by decide⟩ h0 h1 h2
  rcases lt_trichotomy (b.dist (f.v 0)) 0 with h0 | h0 | h0 <;>
  rcases lt_trichotomy (b.dist (f.v 1)) 0 with h1 | h1 | h1 <;>
  rcases lt_trichotomy (b.dist (f.v 2)) 0 with h2 | h2 | h2 <;>
  simp only [truncFace, pat_neg, pat_pos, pat_zero, h0, h1, h2] at e <;>
  first
  | exact keep (all (by first | exact h0.le | exact h0.ge)
      (by first | exact h1.le | exact h1.ge) (by first | exact h2.le | exact h2.ge)) (Option.some.inj e)
  | exact drop (all (by first | exact h0.le | exact h0.ge)
      (by first | exact h1.le | exact h1.ge) (by first | exact h2.le | exact h2.ge)) (Option.some.inj e)
  | exact faceA_circ h hw hz hX hf hP ⟨by decide, by decide, by decide⟩ (by decide) (by assumption) (by assumption)
      (by assumption) e
  | exact faceV_circ h hw hz hX hf hP ⟨by decide, by decide, by decide⟩ (by assumption) (by assumption)
      (by assumption) e
  | exact faceE_circ h hw hz hX hf hP ⟨by decide, by decide, by decide⟩ (by assumption) (by assumption)
      (by assumption) e

theorem truncFaces_circ (hw : ∀ u v, w u v = - w v u) {X : ℕ → ℕ → ℕ} (hX : ∀ u v, X u v = X v u)
    (fs : List BFace) : ∀ {b : BRep}, Ready b → (∀ u v, b.dist u = 0 → b.dist v = 0 → w u v = 0) →
    (∀ f ∈ fs, Sides b f) → (∀ f ∈ fs, Points b X f) → ∀ {b' : BRep} {n o : List BFace},
    truncFaces b fs = some (b', n, o) →
    ((n ++ o).map (circ w)).sum = (fs.map (circ (clipW b.dist X w))).sum := by
  induction fs with
  | nil =>
    intro b h _ _ _ b' n o e
    simp only [truncFaces, Option.some.injEq, Prod.mk.injEq] at e
    obtain ⟨_, rfl, rfl⟩ := e; rfl
  | cons f fs ih =>
    intro b h hz hs hP b' n o e
    obtain ⟨b1, n1, o1, e1, r1⟩ := truncFace_ok h (hs f (by simp))
    have hs' : ∀ g ∈ fs, Sides b1 g := fun g hg => r1.grow.sides (hs g (by simp [hg]))
    have hP' : ∀ g ∈ fs, Points b1 X g := fun g hg i k hk => by
      rw [r1.grow.edge _ ((hs g (by simp [hg])) i).2.1] at hk
      exact hP g (by simp [hg]) i k hk
    obtain ⟨b2, n2, o2, e2, r2⟩ := truncFaces_ok fs r1.ready hs'
    simp only [truncFaces, e1, e2, Option.bind_eq_bind, Option.bind_some, Option.pure_def, Option.some.injEq,
      Prod.mk.injEq] at e
    obtain ⟨_, rfl, rfl⟩ := e
    have k1 := truncFace_circ h hw hz hX (hs f (by simp)) (hP f (by simp)) e1
    have hd : b1.dist = b.dist := funext fun i => r1.grow.dist i
    have k2 := ih r1.ready (by rw [hd]; exact hz) hs' hP' e2
    rw [hd] at k2
    simp only [List.map_append, List.sum_append, List.map_cons, List.sum_cons] at k1 k2 ⊢
    linarith

/-- Vertex triples of the faces. -/
def idx (fs : List BFace) : List (ℕ × ℕ × ℕ) := fs.map fun f => (f.v 0, f.v 1, f.v 2)

theorem sum_edges (w : ℕ → ℕ → ℤ) (fs : List BFace) :
    ((meshEdges (idx fs)).map fun p => w p.1 p.2).sum = (fs.map (circ w)).sum := by
  induction fs with
  | nil => rfl
  | cons f fs ih =>
    simp only [idx, List.map_cons, meshEdges, List.flatMap_cons, List.map_append, List.sum_append, List.sum_cons,
      triEdges, circ, List.map_nil, List.sum_nil] at ih ⊢
    rw [ih]; ring

/-- An antisymmetric function sums to zero over the directed edges of a closed mesh. -/
theorem closed_sum {fs : List BFace} (h : Closed (idx fs)) {v : ℕ → ℕ → ℤ} (hv : ∀ a b, v a b = - v b a) :
    (fs.map (circ v)).sum = 0 := by
  rw [← sum_edges]
  have k : (((meshEdges (idx fs)).map Prod.swap).map fun p => v p.1 p.2).sum =
      ((meshEdges (idx fs)).map fun p => v p.1 p.2).sum := (h.map _).sum_eq
  rw [List.map_map] at k
  have e : ((fun p : ℕ × ℕ => v p.1 p.2) ∘ Prod.swap) = fun p => - v p.1 p.2 := by
    funext p; exact hv _ _
  have neg : ∀ l : List (ℕ × ℕ), (l.map fun p => - v p.1 p.2).sum = - (l.map fun p => v p.1 p.2).sum := by
    intro l; induction l with
    | nil => rfl
    | cons a l ih => simp only [List.map_cons, List.sum_cons, ih]; ring
  rw [e, neg] at k
  linarith

theorem sum_count (p q : ℕ) (l : List (ℕ × ℕ)) :
    (l.map fun x => (if x = (p, q) then (1 : ℤ) else 0) - (if x = (q, p) then 1 else 0)).sum =
      (l.count (p, q) : ℤ) - l.count (q, p) := by
  induction l with
  | nil => rfl
  | cons a l ih =>
    simp only [List.map_cons, List.sum_cons, ih, List.count_cons, beq_iff_eq]
    push_cast
    split <;> split <;> ring

/-- The heights in the cells agree with the true heights up to the tolerance, also at the cutting points. -/
theorem cutEdge_height {τ : ℝ} {pl : Plane3 ℝ} {b : BRep} {e : ℕ} (hτ : 0 ≤ τ)
    (hv : ∀ i ∈ b.vlist, i < b.nv) (he : (b.edge e).v0 ∈ b.vlist ∧ (b.edge e).v1 ∈ b.vlist)
    (h : ∀ i ∈ b.vlist, |b.dist i - height pl (b.pos i)| ≤ τ) :
    ∀ i ∈ (b.cutEdge e).vlist, |(b.cutEdge e).dist i - height pl ((b.cutEdge e).pos i)| ≤ τ := by
  unfold cutEdge
  dsimp only
  split
  · rename_i hneg
    intro i hi
    rcases List.mem_append.1 (show i ∈ b.vlist ++ [b.nv] from hi) with hi | hi
    · have hne : i ≠ b.nv := by have := hv i hi; omega
      show |(Function.update b.vert b.nv _ i).d - height pl (Function.update b.vert b.nv _ i).p| ≤ τ
      rw [Function.update_of_ne hne]; exact h i hi
    · rw [List.mem_singleton] at hi; subst hi
      show |(Function.update b.vert b.nv _ b.nv).d - height pl (Function.update b.vert b.nv _ b.nv).p| ≤ τ
      rw [Function.update_self]
      dsimp only
      obtain ⟨r0, r1, r2⟩ := ratio_ok hneg
      generalize |b.dist (b.edge e).v0| / (|b.dist (b.edge e).v0| + |b.dist (b.edge e).v1|) = s at r0 r1 r2 ⊢
      have k0 := abs_le.1 (h _ he.1)
      have k1 := abs_le.1 (h _ he.2)
      have e : height pl ((b.pos (b.edge e).v0).interDiv (b.pos (b.edge e).v1) s) =
          (1 - s) * height pl (b.pos (b.edge e).v0) + s * height pl (b.pos (b.edge e).v1) := by
        simp only [height, Vec3.interDiv]; ring
      rw [e, abs_le]
      constructor <;> nlinarith
  · exact h

theorem cutEdges_height {τ : ℝ} {pl : Plane3 ℝ} {b : BRep} (hτ : 0 ≤ τ) (hb : Sound b)
    (h : ∀ i ∈ b.vlist, |b.dist i - height pl (b.pos i)| ≤ τ) :
    ∀ i ∈ b.cutEdges.vlist, |b.cutEdges.dist i - height pl (b.cutEdges.pos i)| ≤ τ := by
  have key : ∀ (l : List ℕ) (c : BRep), l.Nodup → (∀ e ∈ l, e ∈ b.elist) → CutInv b c l →
      (∀ i ∈ c.vlist, |c.dist i - height pl (c.pos i)| ≤ τ) →
      ∀ i ∈ (l.foldl cutEdge c).vlist, |(l.foldl cutEdge c).dist i - height pl ((l.foldl cutEdge c).pos i)| ≤ τ := by
    intro l
    induction l with
    | nil => intro c _ _ _ hc; exact hc
    | cons e l ih =>
      intro c hn hm hi hc
      rw [List.nodup_cons] at hn
      have he := hm e (by simp)
      refine ih _ hn.2 (fun k hk => hm k (by simp [hk])) (cutEdge_inv hb.vlt hb.ends he hn.1 hi)
        (cutEdge_height hτ hi.vlt ?_ hc)
      rw [(hi.ends e he).1, (hi.ends e he).2]
      exact ⟨hi.sub _ (hb.ends e he).1, hi.sub _ (hb.ends e he).2⟩
  refine key b.elist b hb.enodup (fun _ h => h) ⟨rfl, rfl, rfl, hb.vnodup, hb.vlt, le_refl _, fun _ h => h,
    fun _ _ => rfl, fun _ _ => ⟨rfl, rfl⟩, hb.nocut, ?_, ?_⟩ h
  · intro e he hne; exact absurd he hne
  · intro e he hne; exact absurd he hne

/-- After the truncation of a closed surface every directed edge away from the plane is met as often as its
reverse. -/
theorem trunc_closed {τ : ℝ} (hτ : 0 ≤ τ) {b : BRep} (h : Sound b)
    (hu : ∀ e ∈ b.elist, ∀ e' ∈ b.elist, SamePair (b.edge e) (b.edge e').v0 (b.edge e').v1 → e = e')
    (hc : Closed (idx b.flist)) {pl : Plane3 ℝ} {b' : BRep} (e : b.trunc τ pl = some b') {p q : ℕ}
    (hp : p ∈ b'.vlist) (hq : q ∈ b'.vlist)
    (hn : τ < |height pl (b'.pos p)| ∨ τ < |height pl (b'.pos q)|) :
    (meshEdges (idx b'.flist)).count (p, q) = (meshEdges (idx b'.flist)).count (q, p) := by
  unfold trunc at e
  dsimp only at e
  split at e
  · cases e
    have k := hc.count_eq (p, q)
    rw [show (p, q) = Prod.swap (q, p) from rfl, List.count_map_of_injective _ _ Prod.swap_injective] at k
    exact k.symm
  · rename_i hcount
    set b1 := b.bbMark τ pl with hb1
    have hm : Sound b1 := bbMark_sound h pl
    have inv := cutEdges_inv hm
    have fl : b1.cutEdges.flist = b.flist := inv.flist
    have rd := cutEdges_ready hm
    have hs : ∀ f ∈ b1.cutEdges.flist, Sides b1.cutEdges f := fun f hf => cutEdges_sides hm (inv.flist ▸ hf)
    obtain ⟨b3, n, o, e3, r⟩ := truncFaces_ok b1.cutEdges.flist rd hs
    rw [e3] at e
    simp only [Option.map_some, Option.some.injEq] at e
    have hgt : ∀ i ∈ b1.cutEdges.vlist, |b1.cutEdges.dist i - height pl (b1.cutEdges.pos i)| ≤ τ :=
      cutEdges_height hτ hm fun i hi => by
        rw [hb1, bbMark_dist (b := b) hi, bbMark_pos]; exact planeDist_near hτ pl _
    have vl : ∀ i ∈ b'.vlist, i ∈ b1.cutEdges.vlist := fun i hi => by
      rw [← e] at hi
      simp only [release, edgeShrink, List.mem_filter] at hi
      rw [← r.grow.vlist]; exact hi.1
    have ps : ∀ i, b'.pos i = b1.cutEdges.pos i := fun i => by
      rw [← e]; exact r.grow.pos i
    have nz : b1.cutEdges.dist p ≠ 0 ∨ b1.cutEdges.dist q ≠ 0 := by
      rcases hn with hn | hn
      · left; intro h0
        have := hgt p (vl p hp)
        rw [h0, zero_sub, abs_neg, ← ps] at this
        exact absurd hn (not_lt.2 this)
      · right; intro h0
        have := hgt q (vl q hq)
        rw [h0, zero_sub, abs_neg, ← ps] at this
        exact absurd hn (not_lt.2 this)
    -- cutting points as a function of the ends
    set X : ℕ → ℕ → ℕ := fun u v => ((b1.cutEdges.edgeFind u v).bind fun k => (b1.cutEdges.edge k).x).getD 0 with hX
    have hXs : ∀ u v, X u v = X v u := fun u v => by
      simp only [hX, edgeFind, or_comm]
    have hP : ∀ f ∈ b1.cutEdges.flist, Points b1.cutEdges X f := by
      intro f hf i k hk
      obtain ⟨_, h2, h3⟩ := hs f hf i
      cases hfind : b1.cutEdges.edgeFind (f.v (i + 1)) (f.v (i + 2)) with
      | none => exact absurd h3 (edgeFind_none hfind _ h2)
      | some e' =>
        obtain ⟨m1, m2⟩ := edgeFind_some hfind
        have h2' : f.e i ∈ b.elist := inv.elist ▸ h2
        have m1' : e' ∈ b.elist := inv.elist ▸ m1
        have eqv : e' = f.e i := by
          refine hu e' m1' (f.e i) h2' ?_
          have a1 := inv.ends e' m1'
          have a2 := inv.ends (f.e i) h2'
          rw [show (b.edge e') = b1.edge e' from rfl, show (b.edge (f.e i)) = b1.edge (f.e i) from rfl]
          simp only [SamePair, ← a1.1, ← a1.2, ← a2.1, ← a2.2]
          rcases m2 with ⟨x0, x1⟩ | ⟨x0, x1⟩ <;> rcases h3 with ⟨y0, y1⟩ | ⟨y0, y1⟩ <;>
            rw [x0, x1, y0, y1] <;> simp
        simp only [hX, hfind, Option.bind_some, eqv, hk, Option.getD_some]
    set w : ℕ → ℕ → ℤ := fun u v => (if (u, v) = (p, q) then (1 : ℤ) else 0) - (if (u, v) = (q, p) then 1 else 0) with hw
    have hwa : ∀ u v, w u v = - w v u := fun u v => by
      simp only [hw, Prod.mk.injEq]
      simp only [and_comm (a := v = p), and_comm (a := v = q)]; ring
    have hwz : ∀ u v, b1.cutEdges.dist u = 0 → b1.cutEdges.dist v = 0 → w u v = 0 := by
      intro u v h1 h2
      have n1 : (u, v) ≠ (p, q) := by
        intro h; simp only [Prod.mk.injEq] at h
        rcases nz with nz | nz <;> [exact nz (h.1 ▸ h1); exact nz (h.2 ▸ h2)]
      have n2 : (u, v) ≠ (q, p) := by
        intro h; simp only [Prod.mk.injEq] at h
        rcases nz with nz | nz <;> [exact nz (h.2 ▸ h2); exact nz (h.1 ▸ h1)]
      simp only [hw, if_neg n1, if_neg n2, sub_zero]
    have key := truncFaces_circ hwa hXs b1.cutEdges.flist rd hwz hs hP e3
    rw [fl, closed_sum hc (clipW_anti hwa hXs), ← sum_edges] at key
    have fl' : b'.flist = n ++ o := by rw [← e]; rfl
    rw [← fl'] at key
    have := sum_count p q (meshEdges (idx b'.flist))
    have e2 : (fun x : ℕ × ℕ => w x.1 x.2) = fun x => (if x = (p, q) then (1 : ℤ) else 0) - (if x = (q, p) then 1 else 0) := by
      funext x; simp only [hw]
    rw [← e2, key] at this
    omega

end BRep
end Zeo

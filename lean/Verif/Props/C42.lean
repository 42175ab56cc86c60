import Verif.Model.Triangulate
import Verif.Props.C20
import Verif.Lemmas.Revolve

/-! # C42: triangulation of a loop -/

namespace Zeo
open Spec Loop

/-- Twice the area vector of a closed polygon. -/
noncomputable def Spec.areaVec (L : List (Vec3 ℝ)) : Vec3 ℝ :=
  (List.zipWith Vec3.outer L (L.rotate 1)).foldr Vec3.add .zero

/-- Three vertices of the loop, in its cyclic order. -/
def Spec.InCycle (L : List (Vec3 ℝ)) (a b c : Vec3 ℝ) : Prop := ∃ k, [a, b, c].Sublist (L.rotate k)

private theorem scan_length (τ : ℝ) (nrm z : Vec3 ℝ) (A R : List (Vec3 ℝ)) (t : Tri3 ℝ) (hR : R ≠ []) :
    (scan τ nrm z A R t).2.2.length + 1 = A.length + R.length := by
  induction R generalizing A t with
  | nil => exact absurd rfl hR
  | cons v R ih =>
    cases R with
    | nil => simp [scan]
    | cons p B =>
      unfold scan
      dsimp only
      split_ifs with h
      · simp; omega
      · rw [ih (A ++ [v]) _ (by simp)]; simp; omega

private theorem run_spec (τ : ℝ) (nrm : Vec3 ℝ) (junk : Tri3 ℝ) (k : ℕ) (L : List (Vec3 ℝ)) (hk : L.length ≤ k) :
    (run τ nrm junk k L).1.length = L.length - 2 ∧ (run τ nrm junk k L).2.2.length = min L.length 2 := by
  induction k generalizing L with
  | zero => simp [run]; omega
  | succ k ih =>
    unfold run
    split_ifs with h
    · have hl := scan_length τ nrm (L.getLastD .zero) [] L junk (by rintro rfl; simp at h)
      simp only [List.length_nil, zero_add] at hl
      obtain ⟨h1, h2⟩ := ih (scan τ nrm (L.getLastD .zero) [] L junk).2.2 (by omega)
      dsimp only
      rw [List.length_cons, h1, h2]; omega
    · dsimp only [List.length_nil]; omega

/-- `n` vertices give `n - 2` triangles (none for one or two vertices), and the loop is used up: two vertices
remain (the search never gets stuck). -/
theorem C42_count (τ : ℝ) (junk : Tri3 ℝ) (L : List (Vec3 ℝ)) (hL : L ≠ []) :
    ∃ ts, triangulate τ junk L = some ts ∧ ts.length = L.length - 2 ∧
      (run τ (Loop.norm τ L) junk L.length L).2.2.length = min L.length 2 := by
  exact ⟨_, if_neg hL, (run_spec _ _ _ _ _ le_rfl).1, (run_spec _ _ _ _ _ le_rfl).2⟩

private theorem inCycle_sub {M L : List (Vec3 ℝ)} (h : M.Sublist L) {a b c : Vec3 ℝ} (hM : InCycle M a b c) : InCycle L a b c := by
  obtain ⟨k, hk⟩ := hM
  rw [List.rotate_eq_drop_append_take_mod] at hk
  rw [← List.take_append_drop (k % M.length) M] at h
  obtain ⟨L1, L2, rfl, h1, h2⟩ := List.append_sublist_iff.1 h
  refine ⟨L1.length, ?_⟩
  rw [List.rotate_append_length_eq]
  exact hk.trans (h2.append h1)

private theorem getLastD_mem {A : List (Vec3 ℝ)} {z : Vec3 ℝ} (h : A ≠ []) : A.getLastD z = A.getLast h := by
  cases A with
  | nil => exact absurd rfl h
  | cons a A => rfl

private theorem last_concat (l : List (Vec3 ℝ)) (b z : Vec3 ℝ) : (l ++ [b]).getLastD z = b := by
  rw [List.getLastD_eq_getLast?, List.getLast?_append_of_ne_nil _ (by simp)]; rfl

private theorem tested_inCycle (A : List (Vec3 ℝ)) (v p : Vec3 ℝ) (B : List (Vec3 ℝ)) (z : Vec3 ℝ)
    (hz : z = (A ++ v :: p :: B).getLastD z) (hl : 2 < (A ++ v :: p :: B).length) :
    InCycle (A ++ v :: p :: B) (A.getLastD z) v p := by
  rcases List.eq_nil_or_concat A with rfl | ⟨A', a, rfl⟩
  · have hB : B ≠ [] := by rintro rfl; simp at hl
    rcases List.eq_nil_or_concat B with rfl | ⟨B', b, rfl⟩
    · exact absurd rfl hB
    · have : z = b := by
        rw [hz, List.concat_eq_append, show [] ++ v :: p :: (B' ++ [b]) = (v :: p :: B') ++ [b] by simp, last_concat]
      subst this
      refine ⟨(v :: p :: B').length, ?_⟩
      have : ([] ++ v :: p :: (B' ++ [z])) = (v :: p :: B') ++ [z] := by simp
      simp only [List.concat_eq_append, this]
      rw [List.rotate_append_length_eq]
      simp
  · refine ⟨0, ?_⟩
    simp only [List.concat_eq_append, List.rotate_zero, List.append_assoc, List.cons_append, List.nil_append]
    have : (A' ++ [a]).getLastD z = a := last_concat _ _ _
    rw [this]
    exact List.sublist_append_of_sublist_right (by simp)

/-- Facts about one search. -/
private theorem scan_spec (τ : ℝ) (nrm z : Vec3 ℝ) (L : List (Vec3 ℝ)) (hL : 2 < L.length) (hz : z = L.getLastD z)
    (A R : List (Vec3 ℝ)) (t : Tri3 ℝ) (hA : A ++ R = L) (hR : R ≠ [])
    (ht : 2 ≤ R.length ∨ ∃ a b c, t = (Tri3.create τ a b c).2 ∧ InCycle L a b c) :
    (scan τ nrm z A R t).2.2.Sublist L ∧
    ∃ a b c, (scan τ nrm z A R t).2.1 = (Tri3.create τ a b c).2 ∧ InCycle L a b c := by
  induction R generalizing A t with
  | nil => exact absurd rfl hR
  | cons v R ih =>
    cases R with
    | nil =>
      simp only [scan]
      refine ⟨hA ▸ List.sublist_append_left _ _, ?_⟩
      rcases ht with ht | ht
      · simp at ht
      · exact ht
    | cons p B =>
      unfold scan
      dsimp only
      have hc := tested_inCycle A v p B z (by rw [hA]; exact hz) (by rw [hA]; exact hL)
      rw [hA] at hc
      split_ifs with h
      · refine ⟨?_, _, _, _, rfl, hc⟩
        rw [← hA]; exact List.Sublist.append (List.Sublist.refl _) (by simp)
      · exact ih (A ++ [v]) _ (by rw [← hA]; simp) (by simp) (Or.inr ⟨_, _, _, rfl, hc⟩)

private theorem getLastD_self {L : List (Vec3 ℝ)} (h : L ≠ []) (d : Vec3 ℝ) : L.getLastD d = L.getLastD (L.getLastD d) := by
  cases L with
  | nil => exact absurd rfl h
  | cons a l => rfl

/-- Every triangle is `zTri3DCreate` of three vertices of the loop taken at different positions in the cyclic
order of the loop. -/
theorem C42_corners (τ : ℝ) (junk : Tri3 ℝ) (L : List (Vec3 ℝ)) (ts : List (Tri3 ℝ)) (h : triangulate τ junk L = some ts) :
    ∀ t ∈ ts, ∃ a b c, t = (Tri3.create τ a b c).2 ∧ InCycle L a b c := by
  have main : ∀ k (M : List (Vec3 ℝ)) nrm, M.Sublist L → ∀ t ∈ (run τ nrm junk k M).1, ∃ a b c, t = (Tri3.create τ a b c).2 ∧ InCycle L a b c := by
    intro k
    induction k with
    | zero => intro M nrm _ t ht; simp [run] at ht
    | succ k ih =>
      intro M nrm hM t ht
      unfold run at ht
      split_ifs at ht with hl
      · have hne : M ≠ [] := by rintro rfl; simp at hl
        obtain ⟨h1, a, b, c, h2, h3⟩ := scan_spec τ nrm (M.getLastD .zero) M hl (getLastD_self hne _) [] M junk (by simp) hne (Or.inl (by omega))
        rw [List.mem_cons] at ht
        rcases ht with rfl | ht
        · exact ⟨a, b, c, h2, inCycle_sub hM h3⟩
        · exact ih _ nrm (h1.trans hM) t ht
      · simp at ht
  intro t ht
  unfold triangulate at h
  split_ifs at h
  cases h
  exact main _ L _ (List.Sublist.refl _) t ht

/-! ## Area -/

private theorem vadd_assoc (a b c : Vec3 ℝ) : (a.add b).add c = a.add (b.add c) := by vring
private theorem vadd_zero (a : Vec3 ℝ) : a.add .zero = a := by ext <;> simp [zeo]
private theorem vzero_add (a : Vec3 ℝ) : Vec3.zero.add a = a := by ext <;> simp [zeo]

/-- Sum of the outer products along an open chain. -/
private noncomputable def chain : List (Vec3 ℝ) → Vec3 ℝ
  | a :: b :: l => (a.outer b).add (chain (b :: l))
  | _ => .zero

private theorem areaVec_chain (a : Vec3 ℝ) (l : List (Vec3 ℝ)) : areaVec (a :: l) = chain (a :: l ++ [a]) := by
  unfold areaVec
  rw [show (a :: l).rotate 1 = l ++ [a] by simp]
  suffices h : ∀ (l : List (Vec3 ℝ)) (a b : Vec3 ℝ), (List.zipWith Vec3.outer (a :: l) (l ++ [b])).foldr Vec3.add .zero = chain (a :: l ++ [b]) from h l a a
  intro l
  induction l with
  | nil => intro a b; simp [chain]
  | cons c l ih => intro a b; simp only [List.cons_append, List.zipWith_cons_cons, List.foldr_cons, chain] at ih ⊢; rw [← ih c b]

private theorem chain_append (A : List (Vec3 ℝ)) (v : Vec3 ℝ) (B : List (Vec3 ℝ)) : chain (A ++ v :: B) = (chain (A ++ [v])).add (chain (v :: B)) := by
  induction A with
  | nil => simp [chain, vzero_add]
  | cons a A ih =>
    cases A with
    | nil => simp [chain, vadd_zero]
    | cons b A => simp only [List.cons_append, chain] at ih ⊢; rw [ih, vadd_assoc]

private theorem outerProd_eq (a b c : Vec3 ℝ) : Tri3.outerProd a b c = ((a.outer b).add (b.outer c)).add (c.outer a) := by
  simp only [Tri3.outerProd]; vring

/-- Cutting the corner `v` off removes exactly its triangle. -/
private theorem areaVec_cut (A : List (Vec3 ℝ)) (v p : Vec3 ℝ) (B : List (Vec3 ℝ)) (z : Vec3 ℝ)
    (hz : z = (A ++ v :: p :: B).getLastD z) (hl : 2 < (A ++ v :: p :: B).length) :
    areaVec (A ++ v :: p :: B) = (Tri3.outerProd (A.getLastD z) v p).add (areaVec (A ++ p :: B)) := by
  rcases List.eq_nil_or_concat A with rfl | ⟨A', a, rfl⟩
  · have hB : B ≠ [] := by rintro rfl; simp at hl
    rcases List.eq_nil_or_concat B with rfl | ⟨B', b, rfl⟩
    · exact absurd rfl hB
    · have : z = b := by
        rw [hz, List.concat_eq_append, show [] ++ v :: p :: (B' ++ [b]) = (v :: p :: B') ++ [b] by simp, last_concat]
      subst this
      simp only [List.concat_eq_append, List.nil_append]
      rw [areaVec_chain, areaVec_chain]
      have e1 : v :: p :: (B' ++ [z]) ++ [v] = (v :: p :: B') ++ z :: [v] := by simp
      have e2 : p :: (B' ++ [z]) ++ [p] = (p :: B') ++ z :: [p] := by simp
      rw [e1, e2, chain_append (v :: p :: B') z [v], chain_append (p :: B') z [p]]
      simp only [List.cons_append, chain, outerProd_eq, List.getLastD_nil]
      generalize chain (p :: (B' ++ [z])) = X
      vring
  · have : (A' ++ [a]).getLastD z = a := last_concat _ _ _
    simp only [List.concat_eq_append]
    rw [this]
    have key : ∀ C : List (Vec3 ℝ), chain (a :: v :: p :: C) = (Tri3.outerProd a v p).add (chain (a :: p :: C)) := by
      intro C
      simp only [chain, outerProd_eq]
      generalize chain (p :: C) = X
      vring
    cases A' with
    | nil =>
      simp only [List.nil_append, List.cons_append]
      rw [areaVec_chain, areaVec_chain]
      exact key (B ++ [a])
    | cons c A' =>
      have e1 : c :: A' ++ [a] ++ v :: p :: B = c :: (A' ++ a :: v :: p :: B) := by simp
      have e2 : c :: A' ++ [a] ++ p :: B = c :: (A' ++ a :: p :: B) := by simp
      rw [e1, e2, areaVec_chain, areaVec_chain]
      have e3 : c :: (A' ++ a :: v :: p :: B) ++ [c] = (c :: A') ++ a :: (v :: p :: (B ++ [c])) := by simp
      have e4 : c :: (A' ++ a :: p :: B) ++ [c] = (c :: A') ++ a :: (p :: (B ++ [c])) := by simp
      rw [e3, e4, chain_append (c :: A') a (v :: p :: (B ++ [c])), chain_append (c :: A') a (p :: (B ++ [c])), key]
      vring

/-- What a successful search gives. -/
private theorem scan_true (τ : ℝ) (nrm z : Vec3 ℝ) (L : List (Vec3 ℝ)) (hL : 2 < L.length) (hz : z = L.getLastD z)
    (A R : List (Vec3 ℝ)) (t : Tri3 ℝ) (hA : A ++ R = L) (h : (scan τ nrm z A R t).1 = true) :
    ∃ A' v p B, A' ++ v :: p :: B = L ∧ (scan τ nrm z A R t).2.2 = A' ++ p :: B ∧
      (scan τ nrm z A R t).2.1 = (Tri3.create τ (A'.getLastD z) v p).2 ∧
      isEar τ nrm (A'.getLastD z) v p (B ++ A').dropLast := by
  induction R generalizing A t with
  | nil => simp [scan] at h
  | cons v R ih =>
    cases R with
    | nil => simp [scan] at h
    | cons p B =>
      unfold scan at h ⊢
      dsimp only at h ⊢
      split_ifs at h ⊢ with he
      · exact ⟨A, v, p, B, hA, rfl, rfl, he⟩
      · exact ih (A ++ [v]) _ (by rw [← hA]; simp) h

/-- Sum of the area vectors of triangles. -/
noncomputable def Spec.sumVec (ts : List (Tri3 ℝ)) : Vec3 ℝ :=
  (ts.map fun t => Tri3.outerProd t.v0 t.v1 t.v2).foldr Vec3.add .zero

private theorem create_v (τ : ℝ) (a b c : Vec3 ℝ) : (Tri3.create τ a b c).2.v0 = a ∧ (Tri3.create τ a b c).2.v1 = b ∧ (Tri3.create τ a b c).2.v2 = c := by
  unfold Tri3.create; dsimp only; split_ifs <;> exact ⟨rfl, rfl, rfl⟩

private theorem area_two {M : List (Vec3 ℝ)} (h : M.length ≤ 2) : areaVec M = .zero := by
  match M, h with
  | [], _ => rfl
  | [a], _ => simp [areaVec, zeo]; ring_nf; trivial
  | [a, b], _ => simp only [areaVec, List.rotate_cons_succ, List.rotate_zero, List.nil_append, List.cons_append, List.zipWith_cons_cons, List.zipWith_nil_left, List.foldr_cons, List.foldr_nil]; vring

/-- If every search found an ear, the area vectors of the triangles add up to the area vector of the loop and every
triangle faces the reference direction. Without the assumption the claim fails, see `C42_area_wrong`; loops for
which it holds are given by `C42_convex`. -/
theorem C42_area_partial (τ : ℝ) (junk : Tri3 ℝ) (L : List (Vec3 ℝ)) (ts : List (Tri3 ℝ)) (h : triangulate τ junk L = some ts)
    (hreg : (run τ (Loop.norm τ L) junk L.length L).2.1 = true) :
    sumVec ts = areaVec L ∧ ∀ t ∈ ts, 0 < t.norm.inner (Loop.norm τ L) := by
  have main : ∀ k (M : List (Vec3 ℝ)) nrm, M.length ≤ k → (run τ nrm junk k M).2.1 = true →
      sumVec (run τ nrm junk k M).1 = areaVec M ∧ ∀ t ∈ (run τ nrm junk k M).1, 0 < t.norm.inner nrm := by
    intro k
    induction k with
    | zero =>
      intro M nrm hk _
      simp only [run]
      exact ⟨(area_two (by omega)).symm, fun t ht => by simp at ht⟩
    | succ k ih =>
      intro M nrm hk hr
      unfold run at hr ⊢
      split_ifs at hr ⊢ with hl
      · have hne : M ≠ [] := by rintro rfl; simp at hl
        simp only [Bool.and_eq_true] at hr ⊢
        obtain ⟨A', v, p, B, e1, e2, e3, he⟩ := scan_true τ nrm (M.getLastD .zero) M hl (getLastD_self hne _) [] M junk (by simp) hr.1
        have hlen := scan_length τ nrm (M.getLastD .zero) [] M junk hne
        simp only [List.length_nil, zero_add] at hlen
        obtain ⟨i1, i2⟩ := ih (scan τ nrm (M.getLastD .zero) [] M junk).2.2 nrm (by omega) hr.2
        constructor
        · have hcut := areaVec_cut A' v p B (M.getLastD .zero) (by rw [e1]; exact getLastD_self hne _) (by rw [e1]; exact hl)
          rw [e1] at hcut
          rw [hcut]
          have : ∀ (t : Tri3 ℝ) (us : List (Tri3 ℝ)), sumVec (t :: us) = (Tri3.outerProd t.v0 t.v1 t.v2).add (sumVec us) := fun _ _ => rfl
          rw [this, i1, e3, e2]
          obtain ⟨c0, c1, c2⟩ := create_v τ (A'.getLastD (M.getLastD .zero)) v p
          rw [c0, c1, c2]
        · intro t ht
          rw [List.mem_cons] at ht
          rcases ht with rfl | ht
          · rw [e3]; exact he.1
          · exact i2 t ht
      · exact ⟨(area_two (by omega)).symm, fun t ht => by simp at ht⟩
  unfold triangulate at h
  split_ifs at h
  cases h
  exact main _ L _ le_rfl hreg

/-! ## Strictly convex loops -/

private theorem plane_outer {n u v : Vec3 ℝ} (hn : n.inner n = 1) (hu : n.inner u = 0) (hv : n.inner v = 0) :
    u.outer v = n.mul (n.inner (u.outer v)) := by
  simp only [zeo] at *
  ext <;> simp only
  · linear_combination (-(u.y * v.z - u.z * v.y)) * hn + (n.y * v.z - n.z * v.y) * hu + (-(n.y * u.z) + n.z * u.y) * hv
  · linear_combination (-(u.z * v.x - u.x * v.z)) * hn + (n.z * v.x - n.x * v.z) * hu + (-(n.z * u.x) + n.x * u.z) * hv
  · linear_combination (-(u.x * v.y - u.y * v.x)) * hn + (n.x * v.y - n.y * v.x) * hu + (-(n.x * u.y) + n.y * u.x) * hv

/-- A planar loop with unit normal `n`, strictly convex (every three vertices taken in order turn left about `n`). -/
def Spec.StrictlyConvex (n : Vec3 ℝ) (L : List (Vec3 ℝ)) : Prop :=
  n.inner n = 1 ∧ (∃ d, ∀ p ∈ L, n.inner p = d) ∧ ∀ a b c, [a, b, c].Sublist L → 0 < n.inner (Tri3.outerProd a b c)

/-- Triangles of the fan about the last vertex. -/
noncomputable def Spec.fan (τ : ℝ) (z : Vec3 ℝ) : List (Vec3 ℝ) → List (Tri3 ℝ)
  | a :: b :: c :: l => (Tri3.create τ z a b).2 :: fan τ z (b :: c :: l)
  | _ => []

private theorem inCycle_rot {L : List (Vec3 ℝ)} {a b c : Vec3 ℝ} (hc : InCycle L a b c) :
    [a, b, c].Sublist L ∨ [b, c, a].Sublist L ∨ [c, a, b].Sublist L := by
  obtain ⟨k, hk⟩ := hc
  rw [List.rotate_eq_drop_append_take_mod] at hk
  have hL : L = L.take (k % L.length) ++ L.drop (k % L.length) := (List.take_append_drop _ _).symm
  generalize L.take (k % L.length) = X at *
  generalize L.drop (k % L.length) = Y at *
  subst hL
  obtain ⟨P, Q, e, hP, hQ⟩ := List.sublist_append_iff.1 hk
  have hs : (Q ++ P).Sublist (X ++ Y) := hQ.append hP
  rcases P with _ | ⟨p, _ | ⟨q, _ | ⟨r, P⟩⟩⟩
  · simp only [List.nil_append] at e; subst e; exact Or.inl (by simpa using hs)
  · simp only [List.cons_append, List.nil_append, List.cons.injEq] at e
    obtain ⟨rfl, rfl⟩ := e
    exact Or.inr (Or.inl (by simpa using hs))
  · simp only [List.cons_append, List.nil_append, List.cons.injEq] at e
    obtain ⟨rfl, rfl, rfl⟩ := e
    exact Or.inr (Or.inr (by simpa using hs))
  · simp only [List.cons_append, List.cons.injEq] at e
    obtain ⟨rfl, rfl, rfl, e⟩ := e
    have := List.append_eq_nil_iff.1 e.symm
    obtain ⟨rfl, rfl⟩ := this
    exact Or.inl (by simpa using hs)

private theorem outerProd_rot (p q r : Vec3 ℝ) : Tri3.outerProd p q r = Tri3.outerProd q r p := by
  simp only [Tri3.outerProd]; vring

private theorem conv_cycle {n : Vec3 ℝ} {L : List (Vec3 ℝ)} (h : StrictlyConvex n L) {a b c : Vec3 ℝ} (hc : InCycle L a b c) :
    0 < n.inner (Tri3.outerProd a b c) := by
  rcases inCycle_rot hc with hs | hs | hs
  · exact h.2.2 _ _ _ hs
  · rw [outerProd_rot]; exact h.2.2 _ _ _ hs
  · rw [outerProd_rot, outerProd_rot]; exact h.2.2 _ _ _ hs

private theorem inCycle_mem {L : List (Vec3 ℝ)} {a b c : Vec3 ℝ} (h : InCycle L a b c) : a ∈ L ∧ b ∈ L ∧ c ∈ L := by
  obtain ⟨k, hk⟩ := h
  exact ⟨List.mem_rotate.1 (hk.subset (by simp)), List.mem_rotate.1 (hk.subset (by simp)), List.mem_rotate.1 (hk.subset (by simp))⟩

/-- Normalisation (or its failure) keeps a positive multiple of `n`. -/
private theorem normalize_pos {τ : ℝ} (hτ : 0 ≤ τ) {n w : Vec3 ℝ} {k : ℝ} (hk : 0 < k) (hw : w = n.mul k) :
    ∃ l, 0 < l ∧ (w.normalize τ w).2 = n.mul l := by
  by_cases ht : w.isTol τ
  · refine ⟨k, hk, ?_⟩
    unfold Vec3.normalize
    rw [if_pos ht]; exact hw
  · obtain ⟨h1, -, -, h4⟩ := axis_normalize hτ (old := w) ht
    refine ⟨k / (w.normalize τ w).1, div_pos hk h1, ?_⟩
    have hx := congrArg Vec3.x (hw.symm.trans h4)
    have hy := congrArg Vec3.y (hw.symm.trans h4)
    have hz := congrArg Vec3.z (hw.symm.trans h4)
    have := h1.ne'
    generalize (w.normalize τ w).1 = c at *
    generalize (w.normalize τ w).2 = v at *
    simp only [Vec3.mul] at hx hy hz
    ext <;> simp only [Vec3.mul] <;> field_simp <;> linarith

private theorem create_pos {τ : ℝ} (hτ : 0 ≤ τ) {n : Vec3 ℝ} {L : List (Vec3 ℝ)} (h : StrictlyConvex n L) {a b c : Vec3 ℝ}
    (hc : InCycle L a b c) : (∃ k, 0 < k ∧ Tri3.outerProd a b c = n.mul k) ∧ ∃ l, 0 < l ∧ (Tri3.create τ a b c).2.norm = n.mul l := by
  have hp := conv_cycle h hc
  obtain ⟨ha, hb, hcm⟩ := inCycle_mem hc
  obtain ⟨hn, ⟨d, hd⟩, -⟩ := h
  have e : Tri3.outerProd a b c = (b.sub a).outer (c.sub a) := by simp only [Tri3.outerProd]; vring
  have e2 : Tri3.outerProd a b c = n.mul (n.inner (Tri3.outerProd a b c)) := by
    rw [e]
    have h1 := hd a ha
    have h2 := hd b hb
    have h3 := hd c hcm
    apply plane_outer hn
    · simp only [zeo] at *; linarith
    · simp only [zeo] at *; linarith
  refine ⟨⟨_, hp, e2⟩, ?_⟩
  unfold Tri3.create
  dsimp only
  split_ifs with ht
  · exact ⟨_, hp, e2⟩
  · exact normalize_pos hτ hp e2

private theorem norm_pos {τ : ℝ} (hτ : 0 ≤ τ) {n : Vec3 ℝ} {L : List (Vec3 ℝ)} (h : StrictlyConvex n L) (hl : 3 ≤ L.length) :
    ∃ l, 0 < l ∧ Loop.norm τ L = n.mul l := by
  unfold Loop.norm
  dsimp only
  have hR : 3 ≤ (L.rotate (minXIdx L)).length := by rw [List.length_rotate]; exact hl
  have hcyc : ∀ a b c, [a, b, c].Sublist (L.rotate (minXIdx L)) → InCycle L a b c := fun a b c hs => ⟨_, hs⟩
  generalize L.rotate (minXIdx L) = R at *
  match R, hR with
  | st :: pst :: r :: R', _ =>
    have hne : (r :: R') ≠ [] := by simp
    have elast : (st :: pst :: r :: R').getLastD st = (r :: R').getLast hne := by
      rw [List.getLastD_eq_getLast?, show st :: pst :: r :: R' = [st, pst] ++ (r :: R') by simp,
        List.getLast?_append_of_ne_nil _ hne, List.getLast?_eq_getLast_of_ne_nil hne]; rfl
    rw [show (st :: pst :: r :: R').headD .zero = st from rfl, elast]
    have hmem := List.getLast_mem hne
    generalize (r :: R').getLast hne = z at *
    have hs : [st, pst, z].Sublist (st :: pst :: r :: R') := by
      apply List.Sublist.cons_cons; apply List.Sublist.cons_cons
      exact List.singleton_sublist.2 hmem
    obtain ⟨⟨k, hk, e⟩, -⟩ := create_pos hτ h (hcyc _ _ _ hs)
    have e' : (pst.sub st).outer (z.sub st) = Tri3.outerProd st pst z := by simp only [Tri3.outerProd]; vring
    rw [show (st :: pst :: r :: R').tail.headD st = pst from rfl, e']
    exact normalize_pos hτ hk e

/-- A strictly convex loop with no triangle below the tolerance, whose vertices keep the tolerance from the fan
triangles they do not belong to (no condition at tolerance zero), is cut into the fan about its last vertex; every
search finds an ear. -/
theorem C42_convex (τ : ℝ) (hτ : 0 ≤ τ) (hτ' : τ ≤ 1/4) (junk : Tri3 ℝ) (n : Vec3 ℝ) (L : List (Vec3 ℝ)) (z : Vec3 ℝ)
    (h : StrictlyConvex n (L ++ [z])) (hl : 2 ≤ L.length)
    (hbig : ∀ a b c, InCycle (L ++ [z]) a b c → ¬ (Tri3.outerProd a b c).isTol τ)
    (hclear : ∀ a b q, [a, b, q].Sublist L → ∀ p ∈ Spec.triangle z a b, τ ≤ ed q p) :
    triangulate τ junk (L ++ [z]) = some (fan τ z (L ++ [z])) ∧
    (run τ (Loop.norm τ (L ++ [z])) junk (L ++ [z]).length (L ++ [z])).2.1 = true := by
  obtain ⟨l0, hl0, hn0⟩ := norm_pos hτ h (by simp; omega)
  have hnn : n.inner n = 1 := h.1
  have main : ∀ k (M : List (Vec3 ℝ)), M.length + 1 ≤ k → 1 ≤ M.length → M.Sublist L →
      (run τ (n.mul l0) junk k (M ++ [z])).1 = fan τ z (M ++ [z]) ∧ (run τ (n.mul l0) junk k (M ++ [z])).2.1 = true := by
    intro k
    induction k with
    | zero => intro M hk; omega
    | succ k ih =>
      intro M hk h1 hM
      match M, h1 with
      | [a], _ => unfold run; simp [fan]
      | a :: b :: M', _ =>
        unfold run
        rw [if_pos (by simp)]
        have hlast : (a :: b :: M' ++ [z]).getLastD .zero = z := last_concat _ _ _
        have hear : isEar τ (n.mul l0) z a b ((M' ++ [z]) ++ []).dropLast := by
          have hcyc : InCycle (L ++ [z]) z a b := by
            refine ⟨L.length, ?_⟩
            rw [List.rotate_append_length_eq]
            have : [a, b].Sublist L := (by simp : [a, b].Sublist (a :: b :: M')).trans hM
            exact this.cons_cons z
          constructor
          · obtain ⟨-, l, hlp, e⟩ := create_pos hτ h hcyc
            rw [e]
            have : (n.mul l).inner (n.mul l0) = l * l0 * n.inner n := by simp only [zeo]; ring
            rw [this, hnn, mul_one]; positivity
          · intro q hq
            rw [List.append_nil, List.dropLast_concat] at hq
            rw [C20_pointIsInside τ hτ hτ' z a b q τ (Or.inl (hbig _ _ _ hcyc))]
            rintro ⟨p, hp, hlt⟩
            have hs : [a, b, q].Sublist L := by
              refine List.Sublist.trans ?_ hM
              apply List.Sublist.cons_cons; apply List.Sublist.cons_cons
              exact List.singleton_sublist.2 hq
            exact absurd hlt (not_lt.2 (hclear a b q hs p hp))
        have hscan : scan τ (n.mul l0) z [] (a :: b :: M' ++ [z]) junk = (true, (Tri3.create τ z a b).2, b :: M' ++ [z]) := by
          rw [show a :: b :: M' ++ [z] = a :: b :: (M' ++ [z]) by simp]
          unfold scan
          dsimp only
          rw [show ([] : List (Vec3 ℝ)).getLastD z = z from rfl, if_pos hear]
          simp
        dsimp only
        rw [hlast, hscan]
        obtain ⟨i1, i2⟩ := ih (b :: M') (by simp at hk ⊢; omega) (by simp) ((List.sublist_cons_self a _).trans hM)
        dsimp only
        rw [i1, i2]
        refine ⟨?_, rfl⟩
        cases M' <;> rfl
  have := main (L ++ [z]).length L (by simp) (by omega) (List.Sublist.refl _)
  rw [hn0]
  refine ⟨?_, this.2⟩
  unfold triangulate
  rw [if_neg (by simp), hn0, this.1]

/-- A square meets the hypotheses at the tolerance `1e-12` of the library. -/
theorem C42_square : ∃ (L : List (Vec3 ℝ)) (z n : Vec3 ℝ), L = [⟨0, 0, 0⟩, ⟨1, 0, 0⟩, ⟨1, 1, 0⟩] ∧ z = ⟨0, 1, 0⟩ ∧
    n = ⟨0, 0, 1⟩ ∧ StrictlyConvex n (L ++ [z]) ∧ 2 ≤ L.length ∧
    (∀ a b c, InCycle (L ++ [z]) a b c → ¬ (Tri3.outerProd a b c).isTol 1e-12) ∧
    (∀ a b q, [a, b, q].Sublist L → ∀ p ∈ Spec.triangle z a b, (1e-12 : ℝ) ≤ ed q p) := by
  have subs : ∀ a b c : Vec3 ℝ, [a, b, c].Sublist [⟨0, 0, 0⟩, ⟨1, 0, 0⟩, ⟨1, 1, 0⟩, (⟨0, 1, 0⟩ : Vec3 ℝ)] →
      (a = ⟨0,0,0⟩ ∧ b = ⟨1,0,0⟩ ∧ c = ⟨1,1,0⟩) ∨ (a = ⟨0,0,0⟩ ∧ b = ⟨1,0,0⟩ ∧ c = ⟨0,1,0⟩) ∨
      (a = ⟨0,0,0⟩ ∧ b = ⟨1,1,0⟩ ∧ c = ⟨0,1,0⟩) ∨ (a = ⟨1,0,0⟩ ∧ b = ⟨1,1,0⟩ ∧ c = ⟨0,1,0⟩) := by
    intro a b c h
    have := List.mem_sublists.2 h
    simp [List.sublists, List.foldr] at this
    tauto
  have hconv : StrictlyConvex (⟨0, 0, 1⟩ : Vec3 ℝ) [⟨0, 0, 0⟩, ⟨1, 0, 0⟩, ⟨1, 1, 0⟩, ⟨0, 1, 0⟩] := by
    refine ⟨by simp [zeo], ⟨0, ?_⟩, ?_⟩
    · intro p hp; simp at hp; rcases hp with rfl | rfl | rfl | rfl <;> simp [zeo]
    · intro a b c h
      rcases subs a b c h with ⟨rfl, rfl, rfl⟩ | ⟨rfl, rfl, rfl⟩ | ⟨rfl, rfl, rfl⟩ | ⟨rfl, rfl, rfl⟩ <;>
        simp only [Tri3.outerProd, zeo] <;> norm_num
  refine ⟨[⟨0, 0, 0⟩, ⟨1, 0, 0⟩, ⟨1, 1, 0⟩], ⟨0, 1, 0⟩, ⟨0, 0, 1⟩, rfl, rfl, rfl, hconv, by simp, ?_, ?_⟩
  · intro a b c hc
    have h1 : ∀ a b c, [a, b, c].Sublist [⟨0, 0, 0⟩, ⟨1, 0, 0⟩, ⟨1, 1, 0⟩, (⟨0, 1, 0⟩ : Vec3 ℝ)] → (Tri3.outerProd a b c).z = 1 := by
      intro a b c h
      rcases subs a b c h with ⟨rfl, rfl, rfl⟩ | ⟨rfl, rfl, rfl⟩ | ⟨rfl, rfl, rfl⟩ | ⟨rfl, rfl, rfl⟩ <;>
        simp only [Tri3.outerProd, zeo] <;> norm_num
    have hz : (Tri3.outerProd a b c).z = 1 := by
      rcases inCycle_rot hc with hs | hs | hs
      · exact h1 _ _ _ hs
      · rw [outerProd_rot]; exact h1 _ _ _ hs
      · rw [outerProd_rot, outerProd_rot]; exact h1 _ _ _ hs
    rintro ⟨-, -, h⟩
    rw [hz, zIsTol] at h
    norm_num at h
  · intro a b q h p hp
    have : a = ⟨0,0,0⟩ ∧ b = ⟨1,0,0⟩ ∧ q = ⟨1,1,0⟩ := by
      have := h.eq_of_length (by simp)
      simp at this; exact this
    obtain ⟨rfl, rfl, rfl⟩ := this
    obtain ⟨s, t, u, hs, ht, hu, hsum, rfl⟩ := hp
    have : (1/2 : ℝ) ≤ ed ⟨1, 1, 0⟩ (Spec.comb s t u 0 ⟨0, 1, 0⟩ ⟨0, 0, 0⟩ ⟨1, 0, 0⟩ ⟨0, 1, 0⟩) := by
      apply Real.le_sqrt_of_sq_le
      simp only [Spec.sqd, Spec.comb, zeo]
      nlinarith [sq_nonneg (u - s)]
    norm_num at this ⊢
    linarith

/-! ## A loop that is triangulated wrongly -/

private theorem not_ear_zero (τ : ℝ) (a b c : Vec3 ℝ) (o : List (Vec3 ℝ)) : ¬ isEar τ .zero a b c o := by
  rintro ⟨h, -⟩
  simp [zeo] at h

private theorem scan_zero (τ : ℝ) (z x y w : Vec3 ℝ) (A C : List (Vec3 ℝ)) (t : Tri3 ℝ) :
    scan τ .zero z C (A ++ [x, y, w]) t = (false, (Tri3.create τ x y w).2, C ++ A ++ [x, y]) := by
  induction A generalizing C t with
  | nil =>
    simp only [List.nil_append, List.append_nil]
    unfold scan
    dsimp only
    rw [if_neg (not_ear_zero _ _ _ _ _)]
    unfold scan
    dsimp only
    rw [if_neg (not_ear_zero _ _ _ _ _)]
    have : (C ++ [x]).getLastD z = x := last_concat _ _ _
    rw [this]
    simp [scan]
  | cons a A ih =>
    have hA : ∃ b B, A ++ [x, y, w] = b :: B := by cases A <;> simp
    obtain ⟨b, B, hB⟩ := hA
    rw [List.cons_append, hB]
    unfold scan
    dsimp only
    rw [if_neg (not_ear_zero _ _ _ _ _), ← hB, ih]
    simp

/-- The unit square with the midpoint of its left side as first vertex: the reference normal is zero (that vertex
is the x-extreme one and is collinear with its neighbours), no ear is accepted, and the three triangles returned
have total area 5/4 although the polygon has area 1. -/
theorem C42_area_wrong (τ : ℝ) (hτ : 0 ≤ τ) (junk : Tri3 ℝ) :
    ∃ L : List (Vec3 ℝ), L = [⟨0, 1/2, 0⟩, ⟨0, 0, 0⟩, ⟨1, 0, 0⟩, ⟨1, 1, 0⟩, ⟨0, 1, 0⟩] ∧ areaVec L = ⟨0, 0, 2⟩ ∧
      ∃ ts, triangulate τ junk L = some ts ∧ (ts.map fun t => Tri3.area t.v0 t.v1 t.v2).sum = 5/4 := by
  refine ⟨_, rfl, ?_, ?_⟩
  · simp only [areaVec, List.rotate_cons_succ, List.rotate_zero, List.nil_append, List.cons_append, List.zipWith_cons_cons,
      List.zipWith_nil_left, List.foldr_cons, List.foldr_nil, zeo]
    norm_num
  · have hn : Loop.norm τ [⟨0, 1/2, 0⟩, ⟨0, 0, 0⟩, ⟨1, 0, 0⟩, ⟨1, 1, 0⟩, (⟨0, 1, 0⟩ : Vec3 ℝ)] = .zero := by
      have hi : minXIdx [⟨0, 1/2, 0⟩, ⟨0, 0, 0⟩, ⟨1, 0, 0⟩, ⟨1, 1, 0⟩, (⟨0, 1, 0⟩ : Vec3 ℝ)] = 0 := by
        simp [minXIdx, List.zipIdx]; norm_num
      unfold Loop.norm
      rw [hi]
      simp only [List.rotate_zero, List.headD_cons, List.tail_cons]
      have e : ([⟨0, 1/2, 0⟩, ⟨0, 0, 0⟩, ⟨1, 0, 0⟩, ⟨1, 1, 0⟩, (⟨0, 1, 0⟩ : Vec3 ℝ)] : List (Vec3 ℝ)).getLastD ⟨0, 1/2, 0⟩ = ⟨0, 1, 0⟩ := rfl
      rw [e]
      have e2 : (Vec3.sub (⟨0, 0, 0⟩ : Vec3 ℝ) ⟨0, 1/2, 0⟩).outer (Vec3.sub ⟨0, 1, 0⟩ ⟨0, 1/2, 0⟩) = .zero := by
        ext <;> simp [zeo]
      rw [e2]
      simp [Vec3.normalize, Vec3.isTol, zIsTol, Vec3.zero, hτ]
    refine ⟨_, if_neg (by simp), ?_⟩
    rw [hn]
    have s1 := fun z => scan_zero τ z ⟨1, 0, 0⟩ ⟨1, 1, 0⟩ ⟨0, 1, 0⟩ [⟨0, 1/2, 0⟩, ⟨0, 0, 0⟩] [] junk
    have s2 := fun z => scan_zero τ z ⟨0, 0, 0⟩ ⟨1, 0, 0⟩ ⟨1, 1, 0⟩ [⟨0, 1/2, 0⟩] [] junk
    have s3 := fun z => scan_zero τ z ⟨0, 1/2, 0⟩ ⟨0, 0, 0⟩ ⟨1, 0, 0⟩ [] [] junk
    simp only [List.nil_append, List.cons_append] at s1 s2 s3
    simp only [List.length_cons, List.length_nil, zero_add, Nat.reduceAdd, run, s1, s2, s3]
    norm_num
    have a1 : ∀ a b c : Vec3 ℝ, Tri3.area (Tri3.create τ a b c).2.v0 (Tri3.create τ a b c).2.v1 (Tri3.create τ a b c).2.v2 = Tri3.area a b c := by
      intro a b c; obtain ⟨h0, h1, h2⟩ := create_v τ a b c; rw [h0, h1, h2]
    rw [a1, a1, a1]
    simp only [Tri3.area, Tri3.outerProd, zeo, Vec3.norm]
    norm_num
    rw [show (4:ℝ) = 2 ^ 2 by norm_num, Real.sqrt_sq (by norm_num)]
    norm_num

/-! ## Alignment -/

private theorem create_swap (τ : ℝ) (a b c : Vec3 ℝ) : (Tri3.create τ a c b).2.norm = (Tri3.create τ a b c).2.norm.mul (-1) := by
  have e : Tri3.outerProd a c b = (Tri3.outerProd a b c).mul (-1) := by simp only [Tri3.outerProd]; vring
  unfold Tri3.create
  dsimp only
  rw [e]
  generalize Tri3.outerProd a b c = w
  have ht : (w.mul (-1)).isTol τ ↔ w.isTol τ := by simp [Vec3.isTol, zIsTol, Vec3.mul]
  by_cases h : w.isTol τ
  · rw [if_pos (ht.2 h), if_pos h]
  · rw [if_neg (fun h' => h (ht.1 h')), if_neg h]
    simp only [Vec3.normalize, if_neg h, if_neg (fun h' => h (ht.1 h')), Vec3.normalizeNC]
    have : (w.mul (-1)).norm = w.norm := by simp only [Vec3.norm]; congr 1; simp only [zeo]; ring
    rw [this]
    vring

/-! ### The reference vertex -/

private theorem minX_fold (l : List (Vec3 ℝ)) : ∀ (k : ℕ) (s : ℕ × ℝ),
    let r := (l.zipIdx k).foldl (fun s c => if c.1.x < s.2 then (c.2, c.1.x) else s) s
    (r = s ∨ ∃ i, ∃ h : i < l.length, r = (k + i, l[i].x)) ∧ r.2 ≤ s.2 ∧ ∀ v ∈ l, r.2 ≤ v.x := by
  induction l with
  | nil => intro k s; simp
  | cons v l ih =>
    intro k s
    simp only [List.zipIdx_cons, List.foldl_cons]
    obtain ⟨h1, h2, h3⟩ := ih (k + 1) (if v.x < s.2 then (k, v.x) else s)
    by_cases hv : v.x < s.2
    · rw [if_pos hv] at h1 h2 h3 ⊢
      refine ⟨Or.inr ?_, h2.trans hv.le, fun w hw => ?_⟩
      · rcases h1 with h1 | ⟨i, hi, h1⟩
        · exact ⟨0, by simp, by rw [h1]; simp⟩
        · exact ⟨i + 1, by simpa using hi, by rw [h1]; simp; omega⟩
      · rcases List.mem_cons.mp hw with rfl | hw
        · exact h2
        · exact h3 w hw
    · rw [if_neg hv] at h1 h2 h3 ⊢
      refine ⟨?_, h2, fun w hw => ?_⟩
      · rcases h1 with h1 | ⟨i, hi, h1⟩
        · exact Or.inl h1
        · exact Or.inr ⟨i + 1, by simpa using hi, by rw [h1]; simp; omega⟩
      · rcases List.mem_cons.mp hw with rfl | hw
        · exact h2.trans (not_lt.mp hv)
        · exact h3 w hw

/-- The vertex whose neighbours determine the reference normal is one of smallest x coordinate. -/
theorem C42_extreme (L : List (Vec3 ℝ)) (hL : L ≠ []) :
    ∃ h : minXIdx L < L.length, ∀ v ∈ L, (L[minXIdx L]'h).x ≤ v.x := by
  obtain ⟨v, l, rfl⟩ := List.exists_cons_of_ne_nil hL
  obtain ⟨h1, h2, h3⟩ := minX_fold (v :: l) 0 (0, v.x)
  have e : minXIdx (v :: l) = ((v :: l).zipIdx.foldl (fun s c => if c.1.x < s.2 then (c.2, c.1.x) else s) (0, v.x)).1 := rfl
  rcases h1 with h1 | ⟨i, hi, h1⟩
  · have e0 : minXIdx (v :: l) = 0 := by rw [e, h1]
    refine ⟨by rw [e0]; simp, fun w hw => ?_⟩
    have := h3 w hw
    rw [h1] at this
    simpa [e0] using this
  · have e0 : minXIdx (v :: l) = i := by rw [e, h1]; simp
    refine ⟨by rw [e0]; exact hi, fun w hw => ?_⟩
    have := h3 w hw
    rw [h1] at this
    simpa [e0] using this

/-- The loop of the L shape: the third vertex has the smallest x coordinate. -/
example : minXIdx [⟨1, 1, 0⟩, ⟨2, 0, 0⟩, (⟨0, 0, 0⟩ : Vec3 ℝ), ⟨0, 2, 0⟩, ⟨1, 2, 0⟩] = 2 := by
  simp [minXIdx, List.zipIdx]; norm_num

/-- Aligning triangles made by `zTri3DCreate` (in particular the result of the triangulation) leaves none facing
against the reference direction, keeps the number of triangles and, triangle by triangle, the corners. -/
theorem C42_align (τ : ℝ) (ts : List (Tri3 ℝ)) (h : ∀ t ∈ ts, ∃ a b c, t = (Tri3.create τ a b c).2) (ref : Vec3 ℝ) :
    (align τ ts ref).length = ts.length ∧
    ∀ i (hi : i < ts.length) (hi' : i < (align τ ts ref).length),
      0 ≤ ref.inner ((align τ ts ref)[i]).norm ∧
      ((align τ ts ref)[i] = ts[i] ∨
       ((align τ ts ref)[i].v0 = ts[i].v0 ∧ (align τ ts ref)[i].v1 = ts[i].v2 ∧ (align τ ts ref)[i].v2 = ts[i].v1 ∧
        (align τ ts ref)[i].norm = ts[i].norm.mul (-1))) := by
  refine ⟨by simp [align], ?_⟩
  intro i hi hi'
  obtain ⟨a, b, c, e⟩ := h ts[i] (List.getElem_mem hi)
  simp only [align, List.getElem_map]
  obtain ⟨c0, c1, c2⟩ := create_v τ a b c
  rw [e, c0, c1, c2]
  split_ifs with hn
  · obtain ⟨d0, d1, d2⟩ := create_v τ a c b
    rw [create_swap]
    have : ref.inner ((Tri3.create τ a b c).2.norm.mul (-1)) = - ref.inner (Tri3.create τ a b c).2.norm := by
      simp only [zeo]; ring
    rw [this]
    exact ⟨by linarith, Or.inr ⟨d0, d1, d2, rfl⟩⟩
  · exact ⟨not_lt.1 hn, Or.inl rfl⟩

/-- The triangulation of the example loop provides such a list. -/
example (τ : ℝ) (hτ : 0 ≤ τ) (junk : Tri3 ℝ) : ∃ ts, ts ≠ [] ∧ ∀ t ∈ ts, ∃ a b c, t = (Tri3.create τ a b c).2 := by
  obtain ⟨L, -, -, ts, h, hs⟩ := C42_area_wrong τ hτ junk
  refine ⟨ts, ?_, fun t ht => ?_⟩
  · rintro rfl; norm_num at hs
  · obtain ⟨a, b, c, e, -⟩ := C42_corners τ junk L ts h t ht
    exact ⟨a, b, c, e⟩

end Zeo

import Verif.Model.Sweep
import Verif.Props.C42
import Verif.Props.C40

/-! Lemmas on prisms and pyramids: the triangulation on offsets, translation, sums along loops. -/

namespace Zeo.Sweep
open Spec
noncomputable section

/-- The triangle of three offsets. -/
def triOf (τ : ℝ) (vert : ℕ → Vec3 ℝ) (t : ℕ × ℕ × ℕ) : Tri3 ℝ := (Tri3.create τ (vert t.1) (vert t.2.1) (vert t.2.2)).2

theorem getLastD_map {α β : Type*} (f : α → β) (A : List α) (z : α) : (A.map f).getLastD (f z) = f (A.getLastD z) := by
  rcases List.eq_nil_or_concat A with rfl | ⟨A', a, rfl⟩
  · rfl
  · simp [List.getLastD_eq_getLast?]

theorem scan_map (τ : ℝ) (vert : ℕ → Vec3 ℝ) (nrm : Vec3 ℝ) (z : ℕ) (R : List ℕ) : ∀ (A : List ℕ) (t : ℕ × ℕ × ℕ),
    Loop.scan τ nrm (vert z) (A.map vert) (R.map vert) (triOf τ vert t) =
      ((scan τ vert nrm z A R t).1, triOf τ vert (scan τ vert nrm z A R t).2.1,
        (scan τ vert nrm z A R t).2.2.map vert) := by
  induction R with
  | nil => intro A t; simp [Loop.scan, scan]
  | cons v R ih =>
    intro A t
    cases R with
    | nil => simp [Loop.scan, scan]
    | cons p B =>
      have ih' := ih (A ++ [v]) (A.getLastD z, v, p)
      simp only [List.map_cons, List.map_append, List.map_nil] at ih'
      simp only [List.map_cons]
      unfold Loop.scan scan
      dsimp only
      rw [getLastD_map, show (B.map vert ++ A.map vert).dropLast = (B ++ A).dropLast.map vert by
        rw [← List.map_append, List.map_dropLast]]
      split_ifs with h
      · simp [triOf]
      · exact ih'

theorem scan_start (τ : ℝ) (nrm z : Vec3 ℝ) (L : List (Vec3 ℝ)) (h : 2 < L.length) (t t' : Tri3 ℝ) :
    Loop.scan τ nrm z [] L t = Loop.scan τ nrm z [] L t' := by
  match L, h with
  | a :: b :: c :: l, _ => simp only [Loop.scan]

theorem last_map (vert : ℕ → Vec3 ℝ) (L : List ℕ) (h : L ≠ []) : (L.map vert).getLastD .zero = vert (L.getLastD 0) := by
  rcases List.eq_nil_or_concat L with rfl | ⟨A', a, rfl⟩
  · exact absurd rfl h
  · simp [List.getLastD_eq_getLast?]

/-- The triangulation on offsets is the triangulation of the vertices. -/
theorem run_map (τ : ℝ) (vert : ℕ → Vec3 ℝ) (nrm : Vec3 ℝ) (junk : Tri3 ℝ) : ∀ (k : ℕ) (L : List ℕ),
    (Loop.run τ nrm junk k (L.map vert)).1 = (run τ vert nrm k L).map (triOf τ vert)
  | 0, L => rfl
  | k + 1, L => by
    unfold Loop.run run
    by_cases h : L.length > 2
    · have hne : L ≠ [] := by rintro rfl; simp at h
      rw [if_pos (by simpa using h), if_pos h]
      dsimp only
      rw [last_map vert L hne, scan_start τ nrm _ (L.map vert) (by simpa using h) junk (triOf τ vert (0, 0, 0))]
      have := scan_map τ vert nrm (L.getLastD 0) L [] (0, 0, 0)
      rw [List.map_nil] at this
      rw [this]
      dsimp only
      rw [run_map τ vert nrm junk k, List.map_cons]
    · rw [if_neg (by simpa using h), if_neg h]; rfl

/-- What a successful search gives, on offsets. -/
theorem scan_true (τ : ℝ) (vert : ℕ → Vec3 ℝ) (nrm : Vec3 ℝ) (z : ℕ) (L R : List ℕ) : ∀ (A : List ℕ) (t : ℕ × ℕ × ℕ),
    A ++ R = L → (scan τ vert nrm z A R t).1 = true →
    ∃ A' v p B, A' ++ v :: p :: B = L ∧ (scan τ vert nrm z A R t).2.2 = A' ++ p :: B ∧
      (scan τ vert nrm z A R t).2.1 = (A'.getLastD z, v, p) ∧
      0 < (triOf τ vert (A'.getLastD z, v, p)).norm.inner nrm := by
  induction R with
  | nil => intro A t _ h; simp [scan] at h
  | cons v R ih =>
    intro A t hA h
    cases R with
    | nil => simp [scan] at h
    | cons p B =>
      unfold scan at h ⊢
      dsimp only at h ⊢
      split_ifs at h ⊢ with he
      · exact ⟨A, v, p, B, hA, rfl, rfl, he.1⟩
      · exact ih (A ++ [v]) _ (by rw [← hA]; simp) h

/-! ## Sums along loops -/

/-- The sum of `g` along an open chain. -/
def chainSum (g : ℕ → ℕ → ℝ) : List ℕ → ℝ
  | a :: b :: l => g a b + chainSum g (b :: l)
  | _ => 0

/-- The sum of `g` along a loop. -/
def loopSum (g : ℕ → ℕ → ℝ) (L : List ℕ) : ℝ := (List.zipWith g L (L.rotate 1)).sum

theorem loopSum_chain (g : ℕ → ℕ → ℝ) (a : ℕ) (l : List ℕ) : loopSum g (a :: l) = chainSum g (a :: l ++ [a]) := by
  unfold loopSum
  rw [show (a :: l).rotate 1 = l ++ [a] by simp]
  suffices h : ∀ (l : List ℕ) (a b : ℕ), (List.zipWith g (a :: l) (l ++ [b])).sum = chainSum g (a :: l ++ [b]) from h l a a
  intro l
  induction l with
  | nil => intro a b; simp [chainSum]
  | cons c l ih =>
    intro a b
    simp only [List.cons_append, List.zipWith_cons_cons, List.sum_cons, chainSum] at ih ⊢
    rw [← ih c b]

theorem chainSum_append (g : ℕ → ℕ → ℝ) (A : List ℕ) (v : ℕ) (B : List ℕ) :
    chainSum g (A ++ v :: B) = chainSum g (A ++ [v]) + chainSum g (v :: B) := by
  induction A with
  | nil => simp [chainSum]
  | cons a A ih =>
    cases A with
    | nil => simp [chainSum]
    | cons b A => simp only [List.cons_append, chainSum] at ih ⊢; rw [ih, add_assoc]

theorem last_concat (l : List ℕ) (b z : ℕ) : (l ++ [b]).getLastD z = b := by
  rw [List.getLastD_eq_getLast?, List.getLast?_append_of_ne_nil _ (by simp)]; rfl

/-- The sum of `g` around a triangle. -/
def triSum (g : ℕ → ℕ → ℝ) (t : ℕ × ℕ × ℕ) : ℝ := g t.1 t.2.1 + g t.2.1 t.2.2 + g t.2.2 t.1

/-- Cutting the corner `v` off removes its triangle. -/
theorem loopSum_cut (g : ℕ → ℕ → ℝ) (hg : ∀ a b, g a b = - g b a) (A : List ℕ) (v p : ℕ) (B : List ℕ) (z : ℕ)
    (hz : z = (A ++ v :: p :: B).getLastD z) (hl : 2 < (A ++ v :: p :: B).length) :
    loopSum g (A ++ v :: p :: B) = triSum g (A.getLastD z, v, p) + loopSum g (A ++ p :: B) := by
  rcases List.eq_nil_or_concat A with rfl | ⟨A', a, rfl⟩
  · have hB : B ≠ [] := by rintro rfl; simp at hl
    rcases List.eq_nil_or_concat B with rfl | ⟨B', b, rfl⟩
    · exact absurd rfl hB
    · have : z = b := by
        rw [hz, List.concat_eq_append, show [] ++ v :: p :: (B' ++ [b]) = (v :: p :: B') ++ [b] by simp, last_concat]
      subst this
      simp only [List.concat_eq_append, List.nil_append]
      rw [loopSum_chain, loopSum_chain]
      have e1 : v :: p :: (B' ++ [z]) ++ [v] = (v :: p :: B') ++ z :: [v] := by simp
      have e2 : p :: (B' ++ [z]) ++ [p] = (p :: B') ++ z :: [p] := by simp
      rw [e1, e2, chainSum_append g (v :: p :: B') z [v], chainSum_append g (p :: B') z [p]]
      simp only [List.cons_append, chainSum, triSum, List.getLastD_nil]
      rw [hg z p]; ring
  · have : (A' ++ [a]).getLastD z = a := last_concat _ _ _
    simp only [List.concat_eq_append]
    rw [this]
    have key : ∀ C : List ℕ, chainSum g (a :: v :: p :: C) = triSum g (a, v, p) + chainSum g (a :: p :: C) := by
      intro C
      simp only [chainSum, triSum]
      rw [hg a p]; ring
    cases A' with
    | nil =>
      simp only [List.nil_append, List.cons_append]
      rw [loopSum_chain, loopSum_chain]
      exact key (B ++ [a])
    | cons c A' =>
      have e1 : c :: A' ++ [a] ++ v :: p :: B = c :: (A' ++ a :: v :: p :: B) := by simp
      have e2 : c :: A' ++ [a] ++ p :: B = c :: (A' ++ a :: p :: B) := by simp
      rw [e1, e2, loopSum_chain, loopSum_chain]
      have e3 : c :: (A' ++ a :: v :: p :: B) ++ [c] = (c :: A') ++ a :: (v :: p :: (B ++ [c])) := by simp
      have e4 : c :: (A' ++ a :: p :: B) ++ [c] = (c :: A') ++ a :: (p :: (B ++ [c])) := by simp
      rw [e3, e4, chainSum_append g (c :: A') a (v :: p :: (B ++ [c])),
        chainSum_append g (c :: A') a (p :: (B ++ [c])), key]
      ring

theorem loopSum_two (g : ℕ → ℕ → ℝ) (hg : ∀ a b, g a b = - g b a) {L : List ℕ} (h : L.length ≤ 2) : loopSum g L = 0 := by
  match L, h with
  | [], _ => simp [loopSum]
  | [a], _ => simp [loopSum]; linarith [hg a a]
  | [a, b], _ => simp [loopSum]; linarith [hg a b]

/-- A triangulation in which every search found an ear: sums around the triangles add up to the sum along the loop; the
triangles have corners on the loop and face the reference direction. -/
theorem run_regular (τ : ℝ) (vert : ℕ → Vec3 ℝ) (nrm : Vec3 ℝ) (junk : Tri3 ℝ) : ∀ (k : ℕ) (L : List ℕ), L.length ≤ k →
    (Loop.run τ nrm junk k (L.map vert)).2.1 = true →
    (∀ g : ℕ → ℕ → ℝ, (∀ a b, g a b = - g b a) → ((run τ vert nrm k L).map (triSum g)).sum = loopSum g L) ∧
    (∀ t ∈ run τ vert nrm k L, t.1 ∈ L ∧ t.2.1 ∈ L ∧ t.2.2 ∈ L ∧ 0 < (triOf τ vert t).norm.inner nrm) ∧
    (run τ vert nrm k L).length = L.length - 2
  | 0, L, hk, _ => by
    have hL : L = [] := by simpa using hk
    subst hL
    simp [run, loopSum]
  | k + 1, L, hk, hr => by
    by_cases h : L.length > 2
    · have hne : L ≠ [] := by rintro rfl; simp at h
      unfold Loop.run at hr
      rw [if_pos (by simpa using h)] at hr
      dsimp only at hr
      rw [last_map vert L hne, scan_start τ nrm _ (L.map vert) (by simpa using h) junk (triOf τ vert (0, 0, 0))] at hr
      have hm := scan_map τ vert nrm (L.getLastD 0) L [] (0, 0, 0)
      rw [List.map_nil] at hm
      rw [hm] at hr
      dsimp only at hr
      rw [Bool.and_eq_true] at hr
      obtain ⟨A', v, p, B, hL, h1, h2, h3⟩ := scan_true τ vert nrm (L.getLastD 0) L L [] (0, 0, 0) (by simp) hr.1
      have hz : L.getLastD 0 = (A' ++ v :: p :: B).getLastD (L.getLastD 0) := by
        rw [hL]
        cases L with
        | nil => exact absurd rfl hne
        | cons a l => rfl
      have hlast : A'.getLastD (L.getLastD 0) ∈ L := by
        rcases List.eq_nil_or_concat A' with rfl | ⟨A'', a, rfl⟩
        · rw [List.getLastD_nil]
          rcases List.eq_nil_or_concat L with rfl | ⟨L', b, rfl⟩
          · exact absurd rfl hne
          · rw [List.concat_eq_append, last_concat]; simp
        · rw [List.concat_eq_append, last_concat, ← hL]; simp
      have hsub : ∀ x ∈ A' ++ p :: B, x ∈ L := by
        intro x hx
        rw [← hL]
        simp only [List.mem_append, List.mem_cons] at hx ⊢
        tauto
      rw [h1] at hr
      have hlen : (A' ++ p :: B).length + 1 = L.length := by rw [← hL]; simp; omega
      obtain ⟨i1, i2, i3⟩ := run_regular τ vert nrm junk k (A' ++ p :: B) (by omega) hr.2
      unfold run
      rw [if_pos h]
      dsimp only
      rw [h1, h2]
      refine ⟨?_, ?_, ?_⟩
      · intro g hg
        rw [List.map_cons, List.sum_cons, i1 g hg]
        conv_rhs => rw [← hL]
        rw [loopSum_cut g hg A' v p B (L.getLastD 0) hz (by rw [hL]; exact h)]
      · intro t ht
        rcases List.mem_cons.1 ht with rfl | ht
        · refine ⟨hlast, ?_, ?_, h3⟩ <;> rw [← hL] <;> simp
        · obtain ⟨j1, j2, j3, j4⟩ := i2 t ht
          exact ⟨hsub _ j1, hsub _ j2, hsub _ j3, j4⟩
      · rw [List.length_cons, i3]; omega
    · unfold run
      rw [if_neg h]
      refine ⟨fun g hg => by rw [loopSum_two g hg (by omega)]; rfl, by simp, by simp; omega⟩

/-- Edges balance when all antisymmetric sums vanish. -/
theorem closed_of_sum {fs : List (ℕ × ℕ × ℕ)}
    (h : ∀ g : ℕ → ℕ → ℝ, (∀ a b, g a b = - g b a) → (fs.map (triSum g)).sum = 0) : Closed fs := by
  unfold Closed
  rw [List.perm_iff_count]
  rintro ⟨a, b⟩
  have hs : (meshEdges fs |>.map Prod.swap).count (a, b) = (meshEdges fs).count (b, a) := by
    have : (a, b) = Prod.swap (b, a) := rfl
    rw [this, List.count_map_of_injective _ _ Prod.swap_injective]
  rw [hs]
  have hsum : ∀ l : List (ℕ × ℕ × ℕ), (l.map (triSum fun x y =>
      (if x = a ∧ y = b then 1 else 0) - (if x = b ∧ y = a then 1 else 0))).sum =
      ((meshEdges l).count (a, b) : ℝ) - (meshEdges l).count (b, a) := by
    intro l
    induction l with
    | nil => simp [meshEdges]
    | cons t l ih =>
      have hme : meshEdges (t :: l) = triEdges t ++ meshEdges l := rfl
      rw [List.map_cons, List.sum_cons, ih, hme, List.count_append, List.count_append]
      obtain ⟨x, y, z⟩ := t
      simp only [triEdges, triSum, List.count_cons, List.count_nil, beq_iff_eq, Prod.mk.injEq]
      push_cast
      ring
  have := h (fun x y => (if x = a ∧ y = b then 1 else 0) - (if x = b ∧ y = a then 1 else 0))
    (by intro x y; simp only [neg_sub, and_comm])
  rw [hsum] at this
  have h2 : ((meshEdges fs).count (b, a) : ℝ) = (meshEdges fs).count (a, b) := by linarith
  exact_mod_cast h2

/-! ## Translation -/

theorem sub_shift (a b s : Vec3 ℝ) : (a.add s).sub (b.add s) = a.sub b := by vring

theorem outerProd_shift (a b c s : Vec3 ℝ) : Tri3.outerProd (a.add s) (b.add s) (c.add s) = Tri3.outerProd a b c := by
  simp only [Tri3.outerProd]; vring

theorem create_shift (τ : ℝ) (a b c s : Vec3 ℝ) :
    (Tri3.create τ (a.add s) (b.add s) (c.add s)).2.norm = (Tri3.create τ a b c).2.norm := by
  unfold Tri3.create
  rw [outerProd_shift]
  dsimp only
  split_ifs <;> rfl

theorem inside_shift (τ : ℝ) (a b c p s : Vec3 ℝ) (m : ℝ) :
    Tri3.pointIsInside τ (a.add s) (b.add s) (c.add s) (p.add s) m ↔ Tri3.pointIsInside τ a b c p m := by
  unfold Tri3.pointIsInside Tri3.closest
  simp only [sub_shift]
  cases Tri3.closestFromOrigin τ (a.sub p) (b.sub p) (c.sub p) <;> simp

theorem isEar_shift (τ : ℝ) (nrm a b c s : Vec3 ℝ) (o : List (Vec3 ℝ)) :
    Loop.isEar τ nrm (a.add s) (b.add s) (c.add s) (o.map (·.add s)) ↔ Loop.isEar τ nrm a b c o := by
  unfold Loop.isEar
  rw [create_shift]
  simp [inside_shift]

theorem scan_shift (τ : ℝ) (nrm z s : Vec3 ℝ) (R : List (Vec3 ℝ)) : ∀ (A : List (Vec3 ℝ)) (t t' : Tri3 ℝ),
    (Loop.scan τ nrm (z.add s) (A.map (·.add s)) (R.map (·.add s)) t).1 = (Loop.scan τ nrm z A R t').1 ∧
    (Loop.scan τ nrm (z.add s) (A.map (·.add s)) (R.map (·.add s)) t).2.2 = (Loop.scan τ nrm z A R t').2.2.map (·.add s) := by
  induction R with
  | nil => intro A t t'; simp [Loop.scan]
  | cons v R ih =>
    intro A t t'
    cases R with
    | nil => simp [Loop.scan]
    | cons p B =>
      have hl : (A.map (·.add s)).getLastD (z.add s) = (A.getLastD z).add s := getLastD_map (·.add s) A z
      have hd : (B.map (·.add s) ++ A.map (·.add s)).dropLast = (B ++ A).dropLast.map (·.add s) := by
        rw [← List.map_append, List.map_dropLast]
      simp only [List.map_cons]
      unfold Loop.scan
      dsimp only
      rw [hl, hd]
      by_cases h : Loop.isEar τ nrm (A.getLastD z) v p (B ++ A).dropLast
      · rw [if_pos ((isEar_shift τ nrm _ _ _ s _).2 h), if_pos h]; simp
      · rw [if_neg (mt (isEar_shift τ nrm _ _ _ s _).1 h), if_neg h]
        have := ih (A ++ [v]) (Tri3.create τ ((A.getLastD z).add s) (v.add s) (p.add s)).2
          (Tri3.create τ (A.getLastD z) v p).2
        simpa only [List.map_append, List.map_cons, List.map_nil] using this

theorem run_shift (τ : ℝ) (nrm s : Vec3 ℝ) (junk : Tri3 ℝ) : ∀ (k : ℕ) (L : List (Vec3 ℝ)),
    (Loop.run τ nrm junk k (L.map (·.add s))).2.1 = (Loop.run τ nrm junk k L).2.1
  | 0, L => rfl
  | k + 1, L => by
    unfold Loop.run
    by_cases h : L.length > 2
    · have hl : (L.map (·.add s)).getLastD .zero = (L.getLastD .zero).add s := by
        rcases List.eq_nil_or_concat L with rfl | ⟨A', a, rfl⟩
        · simp at h
        · simp [List.getLastD_eq_getLast?]
      rw [if_pos (by simpa using h), if_pos h]
      dsimp only
      obtain ⟨h1, h2⟩ := scan_shift τ nrm (L.getLastD .zero) s L [] junk junk
      rw [List.map_nil] at h1 h2
      rw [hl, h1, h2, run_shift τ nrm s junk k]
    · rw [if_neg (by simpa using h), if_neg h]

theorem minXIdx_shift (L : List (Vec3 ℝ)) (s : Vec3 ℝ) : Loop.minXIdx (L.map (·.add s)) = Loop.minXIdx L := by
  have key : ∀ (l : List (Vec3 ℝ)) (k i : ℕ) (x : ℝ),
      ((l.map (·.add s)).zipIdx k).foldl (fun s c => if c.1.x < s.2 then (c.2, c.1.x) else s) (i, x + s.x) =
      (((l.zipIdx k).foldl (fun s c => if c.1.x < s.2 then (c.2, c.1.x) else s) (i, x)).1,
       ((l.zipIdx k).foldl (fun s c => if c.1.x < s.2 then (c.2, c.1.x) else s) (i, x)).2 + s.x) := by
    intro l
    induction l with
    | nil => intro k i x; simp
    | cons v l ih =>
      intro k i x
      simp only [List.map_cons, List.zipIdx_cons, List.foldl_cons]
      have hx : (v.add s).x = v.x + s.x := rfl
      rw [hx]
      by_cases h : v.x < x
      · rw [if_pos (by linarith), if_pos h, ih]
      · rw [if_neg (by linarith), if_neg h, ih]
  unfold Loop.minXIdx
  cases L with
  | nil => rfl
  | cons v l =>
    have := key (v :: l) 0 0 v.x
    simp only [List.map_cons, List.headD_cons] at this ⊢
    rw [show (v.add s).x = v.x + s.x from rfl, this]

theorem norm_shift (τ : ℝ) (L : List (Vec3 ℝ)) (s : Vec3 ℝ) (h : L ≠ []) : Loop.norm τ (L.map (·.add s)) = Loop.norm τ L := by
  unfold Loop.norm
  rw [minXIdx_shift, ← List.map_rotate]
  have hne : L.rotate (Loop.minXIdx L) ≠ [] := by simpa using h
  generalize L.rotate (Loop.minXIdx L) = R at hne
  obtain ⟨a, l, rfl⟩ := List.exists_cons_of_ne_nil hne
  have h2 : (l.map (·.add s)).headD (a.add s) = (l.headD a).add s := by cases l <;> rfl
  have h3 : ((a :: l).map (·.add s)).getLastD (a.add s) = ((a :: l).getLastD a).add s := getLastD_map (·.add s) (a :: l) a
  simp only [List.map_cons, List.headD_cons, List.tail_cons, h2] at h3 ⊢
  rw [h3, sub_shift, sub_shift]

/-! ## Loops in a plane -/

/-- The normal vector of a triangle is a multiple of its area vector. -/
theorem norm_outerProd (τ : ℝ) (a b c : Vec3 ℝ) : ∃ k : ℝ, 0 ≤ k ∧
    (Tri3.create τ a b c).2.norm = (Tri3.outerProd a b c).mul k := by
  unfold Tri3.create
  dsimp only
  split_ifs with h
  · exact ⟨1, zero_le_one, by ext <;> simp [Vec3.mul]⟩
  · unfold Vec3.normalize
    rw [if_neg h]
    exact ⟨_, by unfold Vec3.norm; positivity, rfl⟩

/-- In a plane the area vector of a triangle is along the normal vector of the plane. -/
theorem area_normal (N a b c w : Vec3 ℝ) (hN : N.inner N = 1) (d : ℝ) (ha : N.inner a = d) (hb : N.inner b = d)
    (hc : N.inner c = d) : w.inner (Tri3.outerProd a b c) = w.inner N * N.inner (Tri3.outerProd a b c) := by
  simp only [Tri3.outerProd, zeo] at *
  have h1 : N.x * (b.x - a.x) + N.y * (b.y - a.y) + N.z * (b.z - a.z) = 0 := by linarith
  have h2 : N.x * (c.x - b.x) + N.y * (c.y - b.y) + N.z * (c.z - b.z) = 0 := by linarith
  generalize b.x - a.x = u1 at *
  generalize b.y - a.y = u2 at *
  generalize b.z - a.z = u3 at *
  generalize c.x - b.x = v1 at *
  generalize c.y - b.y = v2 at *
  generalize c.z - b.z = v3 at *
  linear_combination (-(w.x * (u2 * v3 - u3 * v2) + w.y * (u3 * v1 - u1 * v3) + w.z * (u1 * v2 - u2 * v1))) * hN +
    (w.x * (N.y * v3 - N.z * v2) + w.y * (N.z * v1 - N.x * v3) + w.z * (N.x * v2 - N.y * v1)) * h1 -
    (w.x * (N.y * u3 - N.z * u2) + w.y * (N.z * u1 - N.x * u3) + w.z * (N.x * u2 - N.y * u1)) * h2

end
end Zeo.Sweep

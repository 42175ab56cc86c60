import Verif.Model.Kd
import Verif.Spec.Geometry
import Verif.Lemmas.Rot
import Mathlib.Data.List.Perm.Basic
import Mathlib.Tactic.Linarith
import Mathlib.Tactic.Ring
import Mathlib.Tactic.FinCases

/-! # kd-tree: invariants and helper lemmas -/

namespace Zeo
noncomputable section
open Classical

/-- The closed box described by the bounds. -/
def Region.Has (r : Region) (q : Vec3 ℝ) : Prop :=
  ∀ k, (∀ l, r.lo k = some l → l ≤ q.e k) ∧ (∀ h, r.hi k = some h → q.e k ≤ h)

theorem Region.has_full (q : Vec3 ℝ) : Region.full.Has q := by
  intro k; simp [Region.full]

theorem Region.has_setLo {r : Region} {q : Vec3 ℝ} {k : Fin 3} {a : ℝ} :
    r.Has q → a ≤ q.e k → (r.setLo k a).Has q := by
  intro h ha j
  refine ⟨?_, (h j).2⟩
  intro l hl
  by_cases hj : j = k
  · subst hj; simp [Region.setLo] at hl; subst hl; exact ha
  · simp only [Region.setLo, Function.update_of_ne hj] at hl; exact (h j).1 l hl

theorem Region.has_setHi {r : Region} {q : Vec3 ℝ} {k : Fin 3} {a : ℝ} :
    r.Has q → q.e k ≤ a → (r.setHi k a).Has q := by
  intro h ha j
  refine ⟨(h j).1, ?_⟩
  intro l hl
  by_cases hj : j = k
  · subst hj; simp [Region.setHi] at hl; subst hl; exact ha
  · simp only [Region.setHi, Function.update_of_ne hj] at hl; exact (h j).2 l hl

theorem Region.excess_le {p q : ℝ} {lo hi : Option ℝ} (h1 : ∀ l, lo = some l → l ≤ q)
    (h2 : ∀ h, hi = some h → q ≤ h) : Region.excess p lo hi ≤ (p - q)^2 := by
  have hu : Region.upper p hi ≤ (p - q)^2 := by
    cases hi with
    | none => exact sq_nonneg _
    | some b =>
      have := h2 b rfl
      unfold Region.upper
      dsimp only
      split_ifs with hb
      · nlinarith
      · exact sq_nonneg _
  cases lo with
  | none => exact hu
  | some a =>
    have := h1 a rfl
    unfold Region.excess
    dsimp only
    split_ifs with hb
    · nlinarith
    · exact hu

theorem Region.sqrDist_le {r : Region} {q : Vec3 ℝ} (h : r.Has q) (p : Vec3 ℝ) :
    r.sqrDist p ≤ Spec.sqd p q := by
  have h0 := Region.excess_le (p := p.e 0) (h 0).1 (h 0).2
  have h1 := Region.excess_le (p := p.e 1) (h 1).1 (h 1).2
  have h2 := Region.excess_le (p := p.e 2) (h 2).1 (h 2).2
  unfold Region.sqrDist Spec.sqd
  simp only [Vec3.e] at h0 h1 h2 ⊢
  linarith

theorem sqrDist_eq_sqd (p q : Vec3 ℝ) : q.sqrDist p = Spec.sqd p q := by
  simp only [zeo, Spec.sqd]; ring

namespace Kd
/-- The identifiers and points stored in the nodes. -/
def contents : Kd → List (ℕ × Vec3 ℝ)
  | nil => []
  | node _ i _ q _ c0 c1 => (i, q) :: (contents c0 ++ contents c1)

/-- What the documentation of the tree promises for the subtree covering `reg` and splitting on axis `s`:
every node records its region and the axis it splits on, its size is the number of nodes below it
(including itself), all points below it are in its region, those of the first child are on the upper side
of its splitting plane and those of the second strictly on the lower side. -/
def WellFormed : Region → Fin 3 → Kd → Prop
  | _, _, nil => True
  | reg, s, node n i s' q reg' c0 c1 =>
    reg' = reg ∧ s' = s ∧
    n = (contents (node n i s' q reg' c0 c1)).length ∧
    (∀ x ∈ contents (node n i s' q reg' c0 c1), reg.Has x.2) ∧
    (∀ x ∈ contents c0, q.e s ≤ x.2.e s) ∧ (∀ x ∈ contents c1, x.2.e s < q.e s) ∧
    WellFormed (reg.setLo s (q.e s)) (s + 1) c0 ∧ WellFormed (reg.setHi s (q.e s)) (s + 1) c1

theorem WellFormed.size_eq {reg s} {t : Kd} (h : t.WellFormed reg s) : t.size = t.contents.length := by
  cases t with
  | nil => rfl
  | node => exact h.2.2.1

theorem WellFormed.has {reg s} {t : Kd} (h : t.WellFormed reg s) : ∀ x ∈ t.contents, reg.Has x.2 := by
  cases t with
  | nil => intro x hx; simp [contents] at hx
  | node => exact h.2.2.2.1

theorem contents_addTo (p : Vec3 ℝ) (id : ℕ) (t : Kd) (ht : t ≠ nil) :
    (addTo p id t).contents.Perm ((id, p) :: t.contents) := by
  induction t with
  | nil => exact absurd rfl ht
  | node n i s q reg c0 c1 ih0 ih1 =>
    unfold addTo
    split_ifs with hb
    · cases c0 with
      | nil => simp only [contents]; exact List.Perm.swap _ _ _
      | node => 
        dsimp only
        simp only [contents] at ih0 ⊢
        have := ih0 (by simp)
        refine (List.Perm.cons _ (this.append_right _)).trans ?_
        exact List.Perm.swap _ _ _
    · cases c1 with
      | nil =>
        simp only [contents, List.append_nil]
        refine (List.Perm.cons _ (List.perm_append_comm)).trans ?_
        exact List.Perm.swap _ _ _
      | node =>
        dsimp only
        simp only [contents] at ih1 ⊢
        have := ih1 (by simp)
        refine (List.Perm.cons _ ((this.append_left _).trans List.perm_middle)).trans ?_
        exact List.Perm.swap _ _ _

theorem addTo_ne_nil (p : Vec3 ℝ) (id : ℕ) (t : Kd) (ht : t ≠ nil) : addTo p id t ≠ nil := by
  cases t with
  | nil => exact absurd rfl ht
  | node n i s q reg c0 c1 =>
    unfold addTo
    split_ifs <;> split <;> simp

theorem region_of_addTo (p : Vec3 ℝ) (id : ℕ) (n i s q reg c0 c1) :
    ∃ c0' c1', addTo p id (node n i s q reg c0 c1) = node (n+1) i s q reg c0' c1' := by
  unfold addTo
  split_ifs <;> split <;> exact ⟨_, _, rfl⟩

theorem wf_leaf (reg : Region) (s : Fin 3) (p : Vec3 ℝ) (id : ℕ) (hp : reg.Has p) :
    (node 1 id s p reg nil nil).WellFormed reg s := by
  simp [WellFormed, contents, hp]

theorem wf_addTo (p : Vec3 ℝ) (id : ℕ) (t : Kd) : ∀ (reg : Region) (s : Fin 3), t.WellFormed reg s →
    reg.Has p → (addTo p id t).WellFormed reg s := by
  induction t with
  | nil => intro reg s _ _; trivial
  | node n i s q reg c0 c1 ih0 ih1 =>
    intro reg' s' h hp
    have hperm := contents_addTo p id (node n i s q reg c0 c1) (by simp)
    obtain ⟨rfl, rfl, hn, hall, hl, hr, hw0, hw1⟩ := h
    have hlen := hperm.length_eq
    have hall' : ∀ x ∈ (addTo p id (node n i s q reg c0 c1)).contents, reg.Has x.2 := by
      intro x hx
      rcases List.mem_cons.1 (hperm.mem_iff.1 hx) with rfl | hx
      · exact hp
      · exact hall x hx
    unfold addTo at hlen hall' ⊢
    split_ifs at hlen hall' ⊢ with hb
    · have hreg := Region.has_setLo hp hb
      cases c0 with
      | nil =>
        refine ⟨rfl, rfl, ?_, hall', ?_, hr, ?_, hw1⟩
        · rw [hlen, hn]; rfl
        · intro x hx; simp only [contents, List.append_nil, List.mem_singleton] at hx; subst hx; exact hb
        · exact wf_leaf _ _ _ _ hreg
      | node =>
        refine ⟨rfl, rfl, ?_, hall', ?_, hr, ih0 _ _ hw0 hreg, hw1⟩
        · rw [hlen, hn]; rfl
        · intro x hx
          rcases List.mem_cons.1 ((contents_addTo p id _ (by simp)).mem_iff.1 hx) with rfl | hx
          · exact hb
          · exact hl x hx
    · have hb' : p.e s < q.e s := lt_of_not_ge hb
      have hreg := Region.has_setHi hp hb'.le
      cases c1 with
      | nil =>
        refine ⟨rfl, rfl, ?_, hall', hl, ?_, hw0, ?_⟩
        · rw [hlen, hn]; rfl
        · intro x hx; simp only [contents, List.append_nil, List.mem_singleton] at hx; subst hx; exact hb'
        · exact wf_leaf _ _ _ _ hreg
      | node =>
        refine ⟨rfl, rfl, ?_, hall', hl, ?_, hw0, ih1 _ _ hw1 hreg⟩
        · rw [hlen, hn]; rfl
        · intro x hx
          rcases List.mem_cons.1 ((contents_addTo p id _ (by simp)).mem_iff.1 hx) with rfl | hx
          · exact hb'
          · exact hr x hx

theorem wf_add {t : Kd} (h : t.WellFormed .full 0) (p : Vec3 ℝ) : (t.add p).WellFormed .full 0 := by
  cases t with
  | nil => exact wf_leaf _ _ _ _ (Region.has_full _)
  | node => exact wf_addTo _ _ _ _ _ h (Region.has_full _)

theorem contents_add (t : Kd) (p : Vec3 ℝ) : (t.add p).contents.Perm ((t.size, p) :: t.contents) := by
  cases t with
  | nil => exact List.Perm.refl _
  | node => exact contents_addTo _ _ _ (by simp)

theorem build_snoc (ps : List (Vec3 ℝ)) (p : Vec3 ℝ) : build (ps ++ [p]) = (build ps).add p := by
  simp [build, List.foldl_append]

theorem wf_build (ps : List (Vec3 ℝ)) : (build ps).WellFormed .full 0 := by
  induction ps using List.reverseRecOn with
  | nil => trivial
  | append_singleton ps p ih => rw [build_snoc]; exact wf_add ih p

theorem contents_build (ps : List (Vec3 ℝ)) :
    (build ps).contents.Perm (ps.zipIdx.map Prod.swap) := by
  induction ps using List.reverseRecOn with
  | nil => exact List.Perm.refl _
  | append_singleton ps p ih =>
    rw [build_snoc]
    refine (contents_add _ _).trans ?_
    rw [(wf_build ps).size_eq, ih.length_eq]
    simp only [List.zipIdx_append, List.map_append, List.length_map, List.length_zipIdx]
    refine (List.Perm.cons _ ih).trans ?_
    simpa using (List.perm_append_comm (l₁ := [(ps.length, p)]) (l₂ := ps.zipIdx.map Prod.swap))

theorem points_build (ps : List (Vec3 ℝ)) : ((build ps).contents.map Prod.snd).Perm ps := by
  refine ((contents_build ps).map _).trans ?_
  rw [List.map_map]
  have : (Prod.snd ∘ Prod.swap : Vec3 ℝ × ℕ → Vec3 ℝ) = Prod.fst := rfl
  rw [this, List.zipIdx_map_fst]

end Kd
end
end Zeo

import Verif.Model.Hull2D
import Verif.Lemmas.Rot
import Mathlib.Analysis.SpecialFunctions.Complex.Arg

/-! # Lemmas on the gift wrapping of src/zeo_bv2d_convexhull.c -/

namespace Zeo.Hull2D
noncomputable section
open Classical

/-- The half plane of the directions that point forwards in the order of the sorted list. -/
def Hp (u v : ℝ) : Prop := 0 < u ∨ (u = 0 ∧ 0 < v)

theorem Hp.ne {u v : ℝ} (h : Hp u v) : (⟨u, v⟩ : ℂ) ≠ 0 := by
  intro e
  have e1 := congrArg Complex.re e
  have e2 := congrArg Complex.im e
  simp at e1 e2
  rcases h with h | ⟨_, h⟩ <;> linarith

theorem atan2_gt {u v : ℝ} (h : Hp u v) : -(Real.pi / 2) < atan2 v u := by
  unfold atan2
  rw [Complex.neg_pi_div_two_lt_arg_iff]
  rcases h with h | ⟨h, h'⟩
  · exact Or.inl h
  · exact Or.inr h'.le

theorem atan2_le {u v : ℝ} (h : Hp u v) : atan2 v u ≤ Real.pi / 2 := by
  unfold atan2
  rw [Complex.arg_le_pi_div_two_iff]
  rcases h with h | ⟨h, h'⟩
  · exact Or.inl h.le
  · exact Or.inl h.ge

theorem cross_eq (u v u' v' : ℝ) :
    u * v' - v * u' = ‖(⟨u, v⟩ : ℂ)‖ * ‖(⟨u', v'⟩ : ℂ)‖ * Real.sin (atan2 v' u' - atan2 v u) := by
  have a1 := Complex.norm_mul_cos_arg (⟨u, v⟩ : ℂ)
  have a2 := Complex.norm_mul_sin_arg (⟨u, v⟩ : ℂ)
  have b1 := Complex.norm_mul_cos_arg (⟨u', v'⟩ : ℂ)
  have b2 := Complex.norm_mul_sin_arg (⟨u', v'⟩ : ℂ)
  simp only at a1 a2 b1 b2
  unfold atan2
  rw [Real.sin_sub]
  set n := ‖(⟨u, v⟩ : ℂ)‖
  set n' := ‖(⟨u', v'⟩ : ℂ)‖
  set α := Complex.arg ⟨u, v⟩
  set β := Complex.arg ⟨u', v'⟩
  rw [← a1, ← a2, ← b1, ← b2]
  ring

theorem atan2_le_iff {u v u' v' : ℝ} (h : Hp u v) (h' : Hp u' v') :
    atan2 v u ≤ atan2 v' u' ↔ 0 ≤ u * v' - v * u' := by
  have n1 : 0 < ‖(⟨u, v⟩ : ℂ)‖ := norm_pos_iff.2 h.ne
  have n2 : 0 < ‖(⟨u', v'⟩ : ℂ)‖ := norm_pos_iff.2 h'.ne
  have g1 := atan2_gt h
  have g2 := atan2_gt h'
  have l1 := atan2_le h
  have l2 := atan2_le h'
  rw [cross_eq]
  constructor
  · intro e
    exact mul_nonneg (mul_pos n1 n2).le (Real.sin_nonneg_of_nonneg_of_le_pi (by linarith) (by linarith))
  · intro e
    by_contra hc
    have : Real.sin (atan2 v' u' - atan2 v u) < 0 := Real.sin_neg_of_neg_of_neg_pi_lt (by linarith) (by linarith)
    have := mul_neg_of_pos_of_neg (mul_pos n1 n2) this
    linarith

theorem atan2_lt_iff {u v u' v' : ℝ} (h : Hp u v) (h' : Hp u' v') :
    atan2 v u < atan2 v' u' ↔ 0 < u * v' - v * u' := by
  rw [← not_le, atan2_le_iff h' h, not_le]
  constructor <;> intro e <;> linarith

/-- Of three directions in the half plane, turning is transitive. -/
theorem turn_trans {a b c d e f : ℝ} (h1 : Hp a b) (h2 : Hp c d) (h3 : Hp e f) (h12 : 0 ≤ a * d - b * c)
    (h23 : 0 ≤ c * f - d * e) : 0 ≤ a * f - b * e :=
  (atan2_le_iff h1 h3).1 (((atan2_le_iff h1 h2).2 h12).trans ((atan2_le_iff h2 h3).2 h23))

/-! ## Order and side -/

/-- Strict lexicographic order of the coordinates. -/
def Lt (x y : Vec3 ℝ → ℝ) (p q : Vec3 ℝ) : Prop := Hp (x q - x p) (y q - y p)
/-- Twice the signed area of the triangle `a`, `b`, `q`. -/
def crs (x y : Vec3 ℝ → ℝ) (a b q : Vec3 ℝ) : ℝ := (x b - x a) * (y q - y a) - (y b - y a) * (x q - x a)

variable {x y : Vec3 ℝ → ℝ}

theorem Lt.irrefl {p : Vec3 ℝ} (h : Lt x y p p) : False := by
  rcases h with h | ⟨_, h⟩ <;> simp at h
theorem Lt.trans {p q r : Vec3 ℝ} (h : Lt x y p q) (h' : Lt x y q r) : Lt x y p r := by
  unfold Lt Hp at *
  rcases h with h | ⟨h, g⟩ <;> rcases h' with h' | ⟨h', g'⟩
  · left; linarith
  · left; linarith
  · left; linarith
  · right; constructor <;> linarith
theorem Lt.asymm {p q : Vec3 ℝ} (h : Lt x y p q) (h' : Lt x y q p) : False := (h.trans h').irrefl

/-- Before or equal. -/
def Le (x y : Vec3 ℝ → ℝ) (p q : Vec3 ℝ) : Prop := p = q ∨ Lt x y p q

theorem Le.trans {p q r : Vec3 ℝ} (h : Le x y p q) (h' : Le x y q r) : Le x y p r := by
  rcases h with rfl | h
  · exact h'
  · rcases h' with rfl | h'
    · exact Or.inr h
    · exact Or.inr (h.trans h')

theorem Le.lt {p q r : Vec3 ℝ} (h : Le x y p q) (h' : Lt x y q r) : Lt x y p r := by
  rcases h with rfl | h
  · exact h'
  · exact h.trans h'

theorem Lt.le {p q r : Vec3 ℝ} (h : Lt x y p q) (h' : Le x y q r) : Lt x y p r := by
  rcases h' with rfl | h'
  · exact h
  · exact h.trans h'

/-- The convexity step: a point `q` behind `p` and right of `p0 p` is right of `p b`, when `b` is ahead of `p`
and right of `p0 p`. -/
theorem side_step {p0 p b q : Vec3 ℝ} (h1 : Lt x y p0 p) (h2 : Lt x y p b) (h3 : Le x y q p)
    (hb : crs x y p0 p b ≤ 0) (hq : crs x y p0 p q ≤ 0) : crs x y p b q ≤ 0 := by
  rcases h3 with rfl | h3
  · unfold crs; simp
  · have := turn_trans h2 h1 h3 (by unfold crs at hb; nlinarith) (by unfold crs at hq; nlinarith)
    unfold crs; nlinarith

/-! ## The inner loop -/

/-- The direction angle used by the scan. -/
def ang (x y : Vec3 ℝ → ℝ) (p0 q : Vec3 ℝ) : ℝ := atan2 (y q - y p0) (x q - x p0)

theorem ang_lt_iff {p0 p q : Vec3 ℝ} (hp : Lt x y p0 p) (hq : Lt x y p0 q) :
    ang x y p0 q < ang x y p0 p ↔ crs x y p0 p q < 0 := by
  unfold ang
  rw [atan2_lt_iff hq hp]
  unfold crs
  constructor <;> intro h <;> nlinarith

theorem ang_le_iff {p0 p q : Vec3 ℝ} (hp : Lt x y p0 p) (hq : Lt x y p0 q) :
    ang x y p0 q ≤ ang x y p0 p ↔ crs x y p0 p q ≤ 0 := by
  unfold ang
  rw [atan2_le_iff hq hp]
  unfold crs
  constructor <;> intro h <;> nlinarith

/-- State of the scan after the points `dn`, with the points `l` still ahead. -/
def Inv (x y : Vec3 ℝ → ℝ) (p0 : Vec3 ℝ) (dn l : List (Vec3 ℝ)) (a : ℝ × List (Vec3 ℝ)) : Prop :=
  ((∀ q ∈ dn, q = p0) ∧ a = (-(Real.pi / 2), dn ++ l)) ∨
  ∃ pre p m, dn = pre ++ p :: m ∧ a = (ang x y p0 p, p :: (m ++ l)) ∧ p ≠ p0 ∧
    (∀ q ∈ pre, q ≠ p0 → ang x y p0 q ≤ ang x y p0 p) ∧ (∀ q ∈ m, q ≠ p0 → ang x y p0 q < ang x y p0 p)

theorem scan_inv (τ : ℝ) (s0 s1 p0 : Vec3 ℝ) :
    ∀ (l dn : List (Vec3 ℝ)) (a : ℝ × List (Vec3 ℝ)),
    (∀ q ∈ l, Le (·.inner s0) (·.inner s1) p0 q) → (∀ q ∈ l, (q.sub p0).isTol τ ↔ q = p0) →
    Inv (·.inner s0) (·.inner s1) p0 dn l a → Inv (·.inner s0) (·.inner s1) p0 (dn ++ l) [] (scan τ s0 s1 p0 l a)
  | [], dn, a, _, _, h => by simpa [scan] using h
  | p :: l, dn, a, h1, h2, h => by
    have e1 : (p.sub p0).inner s1 = p.inner s1 - p0.inner s1 := by simp [zeo]; ring
    have e0 : (p.sub p0).inner s0 = p.inner s0 - p0.inner s0 := by simp [zeo]; ring
    have e : dn ++ p :: l = (dn ++ [p]) ++ l := by simp
    have g1 : ∀ q ∈ l, Le (·.inner s0) (·.inner s1) p0 q := fun q hq => h1 q (by simp [hq])
    have g2 : ∀ q ∈ l, (q.sub p0).isTol τ ↔ q = p0 := fun q hq => h2 q (by simp [hq])
    simp only [scan, e1, e0]
    have hang : atan2 (p.inner s1 - p0.inner s1) (p.inner s0 - p0.inner s0) = ang (·.inner s0) (·.inner s1) p0 p := rfl
    rw [hang, e]
    have hh := h2 p (by simp)
    by_cases hp : p = p0
    · rw [if_neg (by rw [hh]; simp [hp])]
      refine scan_inv τ s0 s1 p0 l (dn ++ [p]) a g1 g2 ?_
      rcases h with ⟨h3, h4⟩ | ⟨pre, p', m, h3, h4, h5, h6, h7⟩
      · left
        refine ⟨fun q hq => ?_, by rw [h4]; simp⟩
        rcases List.mem_append.1 hq with hq | hq
        · exact h3 q hq
        · rw [List.mem_singleton.1 hq, hp]
      · right
        refine ⟨pre, p', m ++ [p], by rw [h3]; simp, by rw [h4]; simp, h5, h6, fun q hq hq' => ?_⟩
        rcases List.mem_append.1 hq with hq | hq
        · exact h7 q hq hq'
        · exact absurd ((List.mem_singleton.1 hq).trans hp) hq'
    · have hlt : Lt (·.inner s0) (·.inner s1) p0 p := by
        rcases h1 p (by simp) with h | h
        · exact absurd h.symm hp
        · exact h
      by_cases ha : a.1 ≤ ang (·.inner s0) (·.inner s1) p0 p
      · rw [if_pos ⟨fun h => hp (hh.1 h), ha⟩]
        refine scan_inv τ s0 s1 p0 l (dn ++ [p]) _ g1 g2 ?_
        right
        refine ⟨dn, p, [], rfl, rfl, hp, fun q hq hq' => ?_, by simp⟩
        rcases h with ⟨h3, h4⟩ | ⟨pre, p', m, h3, h4, h5, h6, h7⟩
        · exact absurd (h3 q hq) hq'
        · rw [h4] at ha
          rw [h3] at hq
          rcases List.mem_append.1 hq with hq | hq
          · exact (h6 q hq hq').trans ha
          · rcases List.mem_cons.1 hq with rfl | hq
            · exact ha
            · exact (h7 q hq hq').le.trans ha
      · rw [if_neg (by simp [ha])]
        refine scan_inv τ s0 s1 p0 l (dn ++ [p]) a g1 g2 ?_
        rcases h with ⟨h3, h4⟩ | ⟨pre, p', m, h3, h4, h5, h6, h7⟩
        · exfalso
          rw [h4] at ha
          exact ha (atan2_gt hlt).le
        · right
          refine ⟨pre, p', m ++ [p], by rw [h3]; simp, by rw [h4]; simp, h5, h6, fun q hq hq' => ?_⟩
          rcases List.mem_append.1 hq with hq | hq
          · exact h7 q hq hq'
          · rw [List.mem_singleton.1 hq]
            rw [h4] at ha
            exact not_le.1 ha

/-- What the scan finds: the last of the points of largest angle. -/
theorem scan_spec (τ : ℝ) (s0 s1 p0 : Vec3 ℝ) (l : List (Vec3 ℝ))
    (h1 : ∀ q ∈ l, Le (·.inner s0) (·.inner s1) p0 q) (h2 : ∀ q ∈ l, (q.sub p0).isTol τ ↔ q = p0)
    (h3 : ∃ q ∈ l, q ≠ p0) :
    ∃ pre p m, l = pre ++ p :: m ∧ (scan τ s0 s1 p0 l (-(Real.pi / 2), l)).2 = p :: m ∧ p ≠ p0 ∧
    (∀ q ∈ pre, q ≠ p0 → ang (·.inner s0) (·.inner s1) p0 q ≤ ang (·.inner s0) (·.inner s1) p0 p) ∧
    (∀ q ∈ m, q ≠ p0 → ang (·.inner s0) (·.inner s1) p0 q < ang (·.inner s0) (·.inner s1) p0 p) := by
  have := scan_inv τ s0 s1 p0 l [] (-(Real.pi / 2), l) h1 h2 (Or.inl ⟨by simp, by simp⟩)
  rcases this with ⟨h4, _⟩ | ⟨pre, p, m, h4, h5, h6, h7, h8⟩
  · obtain ⟨q, hq, hq'⟩ := h3
    exact absurd (h4 q (by simpa using hq)) hq'
  · exact ⟨pre, p, m, by simpa using h4, by rw [h5]; simp, h6, h7, h8⟩

/-! ## The outer loop -/

/-- Consecutive triples turn right. -/
def Turns (x y : Vec3 ℝ → ℝ) : List (Vec3 ℝ) → Prop
  | a :: b :: c :: l => crs x y a b c < 0 ∧ Turns x y (b :: c :: l)
  | _ => True

theorem chain_cons (τ : ℝ) (s0 s1 p0 : Vec3 ℝ) {l : List (Vec3 ℝ)} (h : l ≠ []) :
    chain τ s0 s1 (p0 :: l) = p0 :: chain τ s0 s1 (scan τ s0 s1 p0 l (-(Real.pi / 2), l)).2 := by
  obtain ⟨q, l', rfl⟩ := List.exists_cons_of_ne_nil h
  rw [chain]

theorem chain_spec (τ : ℝ) (s0 s1 : Vec3 ℝ) : ∀ (n : ℕ) (l : List (Vec3 ℝ)) (p0 : Vec3 ℝ) (P : Set (Vec3 ℝ)),
    l.length ≤ n →
    (p0 :: l).Pairwise (Le (·.inner s0) (·.inner s1)) →
    (∀ p ∈ p0 :: l, ∀ q ∈ p0 :: l, (q.sub p).isTol τ ↔ q = p) →
    (l = [] ∨ (p0 :: l).getLast (by simp) ≠ p0) →
    (∀ q ∈ P, Le (·.inner s0) (·.inner s1) q p0) →
    (∀ q ∈ P, ∀ b ∈ l, b ≠ p0 → crs (·.inner s0) (·.inner s1) p0 b q ≤ 0) →
    ∃ r, chain τ s0 s1 (p0 :: l) ++ [(p0 :: l).getLast (by simp)] = p0 :: r ∧ (∀ q ∈ r, q ∈ l ∧ q ≠ p0) ∧
      (l = [] → r = []) ∧ (l ≠ [] → r ≠ []) ∧
      List.IsChain (fun a b => Lt (·.inner s0) (·.inner s1) a b ∧
        ∀ q, q ∈ P ∨ q ∈ p0 :: l → crs (·.inner s0) (·.inner s1) a b q ≤ 0) (p0 :: r) ∧
      Turns (·.inner s0) (·.inner s1) (p0 :: r) := by
  intro n
  induction n with
  | zero =>
    intro l p0 P hn
    have : l = [] := List.length_eq_zero_iff.1 (by omega)
    subst this
    intro _ _ _ _ _
    exact ⟨[], by simp [chain], by simp, by simp, by simp, by simp, by simp [Turns]⟩
  | succ n ih =>
    intro l p0 P hn hs hsep hl hP hInv
    by_cases hnil : l = []
    · subst hnil
      exact ⟨[], by simp [chain], by simp, by simp, by simp, by simp, by simp [Turns]⟩
    have hlast : (p0 :: l).getLast (by simp) ≠ p0 := hl.resolve_left hnil
    rw [List.getLast_cons hnil] at hlast ⊢
    have hle : ∀ q ∈ l, Le (·.inner s0) (·.inner s1) p0 q := fun q hq => (List.pairwise_cons.1 hs).1 q hq
    obtain ⟨pre, p, m, e1, e2, hp, hpre, hm⟩ := scan_spec τ s0 s1 p0 l hle
      (fun q hq => hsep p0 (by simp) q (by simp [hq])) ⟨_, List.getLast_mem hnil, hlast⟩
    have hlt : ∀ q ∈ l, q ≠ p0 → Lt (·.inner s0) (·.inner s1) p0 q := fun q hq hq' => by
      rcases hle q hq with h | h
      · exact absurd h.symm hq'
      · exact h
    have hpl : p ∈ l := by rw [e1]; simp
    have hltp := hlt p hpl hp
    have hsl := (List.pairwise_cons.1 hs).2
    rw [e1] at hsl
    have hspm := (List.pairwise_append.1 hsl).2.1
    have hprep := (List.pairwise_append.1 hsl).2.2
    have hmp : ∀ q ∈ m, Le (·.inner s0) (·.inner s1) p q := (List.pairwise_cons.1 hspm).1
    have hm0 : ∀ q ∈ m, q ≠ p0 := fun q hq e => by
      have h1 := hmp q hq
      rw [e] at h1
      exact (hltp.le h1).irrefl
    have hml : ∀ q ∈ m, q ∈ l := fun q hq => by rw [e1]; simp [hq]
    have hmne : ∀ q ∈ m, q ≠ p := fun q hq e => by
      have := hm q hq (hm0 q hq)
      rw [e] at this
      exact lt_irrefl _ this
    -- every point lies right of the edge
    have hall : ∀ q, q ∈ P ∨ q ∈ p0 :: l → crs (·.inner s0) (·.inner s1) p0 p q ≤ 0 := by
      intro q hq
      rcases hq with hq | hq
      · exact hInv q hq p hpl hp
      · by_cases hq0 : q = p0
        · subst hq0; unfold crs; simp
        · have hql : q ∈ l := (List.mem_cons.1 hq).resolve_left hq0
          rw [← ang_le_iff hltp (hlt q hql hq0)]
          rw [e1] at hql
          rcases List.mem_append.1 hql with h | h
          · exact hpre q h hq0
          · rcases List.mem_cons.1 h with rfl | h
            · exact le_rfl
            · exact (hm q h hq0).le
    have hlen : m.length ≤ n := by
      have := congrArg List.length e1
      simp at this
      omega
    have hsub : ∀ q ∈ p :: m, q ∈ p0 :: l := by
      intro q hq
      rcases List.mem_cons.1 hq with rfl | hq
      · exact List.mem_cons_of_mem _ hpl
      · exact List.mem_cons_of_mem _ (hml q hq)
    have elast : l.getLast hnil = (p :: m).getLast (by simp) := by
      simp only [e1]
      rw [List.getLast_append_of_ne_nil (by simp)]
    obtain ⟨r, hr1, hr2, hr3, hr4, hr5, hr6⟩ := ih m p (P ∪ {p0} ∪ {q | q ∈ pre}) hlen hspm
      (fun a ha b hb => hsep a (hsub a ha) b (hsub b hb))
      (by
        by_cases hm' : m = []
        · exact Or.inl hm'
        · right
          rw [List.getLast_cons hm']
          exact hmne _ (List.getLast_mem hm'))
      (by
        intro q hq
        rcases hq with (hq | hq) | hq
        · exact (hP q hq).trans (Or.inr hltp)
        · rw [Set.mem_singleton_iff.1 hq]; exact Or.inr hltp
        · exact hprep q hq p (by simp))
      (by
        intro q hq b hb hbp
        have hq' : q ∈ P ∨ q ∈ p0 :: l := by
          rcases hq with (hq | hq) | hq
          · exact Or.inl hq
          · exact Or.inr (by rw [Set.mem_singleton_iff.1 hq]; simp)
          · exact Or.inr (List.mem_cons_of_mem _ (by rw [e1]; exact List.mem_append_left _ hq))
        have hqp : Le (·.inner s0) (·.inner s1) q p := by
          rcases hq with (hq | hq) | hq
          · exact (hP q hq).trans (Or.inr hltp)
          · rw [Set.mem_singleton_iff.1 hq]; exact Or.inr hltp
          · exact hprep q hq p (by simp)
        have hpb : Lt (·.inner s0) (·.inner s1) p b := by
          rcases hmp b hb with h | h
          · exact absurd h.symm hbp
          · exact h
        exact side_step hltp hpb hqp (hall b (Or.inr (hsub b (by simp [hb])))) (hall q hq'))
    refine ⟨p :: r, ?_, ?_, fun h => absurd h hnil, fun _ => by simp, ?_, ?_⟩
    · rw [chain_cons τ s0 s1 p0 hnil, e2, List.cons_append, elast, hr1]
    · intro q hq
      rcases List.mem_cons.1 hq with rfl | hq
      · exact ⟨hpl, hp⟩
      · exact ⟨hml q (hr2 q hq).1, hm0 q (hr2 q hq).1⟩
    · rw [List.isChain_cons_cons]
      refine ⟨⟨hltp, hall⟩, hr5.imp fun a b h => ⟨h.1, fun q hq => h.2 q ?_⟩⟩
      rcases hq with hq | hq
      · exact Or.inl (Or.inl (Or.inl hq))
      · rcases List.mem_cons.1 hq with rfl | hq
        · exact Or.inl (Or.inl (Or.inr rfl))
        · rw [e1] at hq
          rcases List.mem_append.1 hq with hq | hq
          · exact Or.inl (Or.inr hq)
          · exact Or.inr hq
    · cases r with
      | nil => simp [Turns]
      | cons b r' =>
        refine ⟨?_, hr6⟩
        have hb := (hr2 b (by simp)).1
        exact (ang_lt_iff hltp (hlt b (hml b hb) (hm0 b hb))).1 (hm b hb (hm0 b hb))

end
end Zeo.Hull2D

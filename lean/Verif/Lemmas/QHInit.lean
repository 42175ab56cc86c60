import Verif.Lemmas.QHStep

/-! # The first simplex -/

namespace Zeo.QHMesh
noncomputable section
open Classical QHGeom Spec QH

variable {τ : ℝ} {pos : ℕ → Vec3 ℝ} {N : ℕ}

theorem near_zero_self (hτ : 0 ≤ τ) : Near τ Vec3.zero .zero := by
  simp [Near, Vec3.zero, hτ]

theorem unitV_cross {a b : Vec3 ℝ} (h : crossP (unitV a) (unitV b) ≠ .zero) :
    unitV (crossP (unitV a) (unitV b)) = unitV (crossP a b) := by
  have key : ∀ (k : ℝ) (v : Vec3 ℝ), 0 < k → unitV ⟨k * v.x, k * v.y, k * v.z⟩ = unitV v := by
    intro k v hk
    have e : (k * v.x) ^ 2 + (k * v.y) ^ 2 + (k * v.z) ^ 2 = k ^ 2 * (v.x ^ 2 + v.y ^ 2 + v.z ^ 2) := by ring
    have hs : Real.sqrt (k ^ 2 * (v.x ^ 2 + v.y ^ 2 + v.z ^ 2)) = k * Real.sqrt (v.x ^ 2 + v.y ^ 2 + v.z ^ 2) := by
      rw [Real.sqrt_mul (by positivity), Real.sqrt_sq hk.le]
    unfold unitV
    simp only [e, hs]
    ext <;> exact mul_div_mul_left _ _ hk.ne'
  set ra := Real.sqrt (a.x ^ 2 + a.y ^ 2 + a.z ^ 2) with hra
  set rb := Real.sqrt (b.x ^ 2 + b.y ^ 2 + b.z ^ 2) with hrb
  have e : crossP (unitV a) (unitV b) = ⟨1 / (ra * rb) * (crossP a b).x, 1 / (ra * rb) * (crossP a b).y,
      1 / (ra * rb) * (crossP a b).z⟩ := by
    simp only [crossP, unitV, ← hra, ← hrb]
    ext <;> simp only <;> ring
  have hr : ra * rb ≠ 0 := by
    intro h0
    apply h
    rw [e, h0]
    simp [Vec3.zero]
  have h1 : 0 ≤ ra := Real.sqrt_nonneg _
  have h2 : 0 ≤ rb := Real.sqrt_nonneg _
  rw [e]
  exact key _ _ (one_div_pos.2 (lt_of_le_of_ne (mul_nonneg h1 h2) (Ne.symm hr)))

theorem second_spec (h : Res τ pos N) {v0 : ℕ} (h0 : v0 < N) (l : List ℕ) (hl : ∀ v ∈ l, v < N) :
    (second τ pos v0 l = none ∧ ∀ v ∈ l, pos v = pos v0) ∨
    ∃ v1 l1 A, second τ pos v0 l = some (v1, l1) ∧ l = A ++ v1 :: l1 ∧ (∀ v ∈ A, pos v = pos v0) ∧ pos v1 ≠ pos v0 := by
  induction l with
  | nil => exact Or.inl ⟨rfl, by simp⟩
  | cons v l ih =>
    unfold second
    by_cases hc : ((pos v).sub (pos v0)).isTol τ
    · have e : pos v = pos v0 := h.same _ (hl v List.mem_cons_self) _ h0 ((isTol_sub_iff _ _ _).1 hc)
      rw [if_neg (not_not.2 hc)]
      rcases ih fun w hw => hl w (List.mem_cons_of_mem _ hw) with ⟨e1, e2⟩ | ⟨v1, l1, A, e1, rfl, e2, e3⟩
      · refine Or.inl ⟨e1, fun w hw => ?_⟩
        rcases List.mem_cons.1 hw with rfl | hw
        · exact e
        · exact e2 w hw
      · refine Or.inr ⟨v1, l1, v :: A, e1, rfl, fun w hw => ?_, e3⟩
        rcases List.mem_cons.1 hw with rfl | hw
        · exact e
        · exact e2 w hw
    · rw [if_pos hc]
      refine Or.inr ⟨v, l, [], rfl, rfl, by simp, fun e => hc ?_⟩
      rw [isTol_sub_iff, e]
      exact ⟨by simpa using h.tol, by simpa using h.tol, by simpa using h.tol⟩

theorem triNormal_same (a b : Vec3 ℝ) : triNormal (a, b, a) = .zero := by
  simp [triNormal, Vec3.zero]

theorem triNormal_same' (a b : Vec3 ℝ) : triNormal (a, b, b) = .zero := by
  simp only [triNormal, Vec3.zero]
  ext <;> simp only <;> ring

theorem third_spec (h : Res τ pos N) {v0 v1 : ℕ} (h0 : v0 < N) (h1 : v1 < N) (l : List ℕ) (hl : ∀ v ∈ l, v < N) :
    ∀ rsv, (third τ pos v0 (unitV ((pos v1).sub (pos v0))) l rsv = none ∧
      ∀ v ∈ l, triNormal (pos v0, pos v1, pos v) = .zero) ∨
    ∃ v2 l2 A, third τ pos v0 (unitV ((pos v1).sub (pos v0))) l rsv =
        some (v2, unitNormal (pos v0) (pos v1) (pos v2), l2, A.reverse ++ rsv) ∧ l = A ++ v2 :: l2 ∧
      (∀ v ∈ A, triNormal (pos v0, pos v1, pos v) = .zero) ∧ triNormal (pos v0, pos v1, pos v2) ≠ .zero := by
  induction l with
  | nil => exact fun rsv => Or.inl ⟨rfl, by simp⟩
  | cons v l ih =>
    intro rsv
    unfold third
    dsimp only
    have hv := hl v List.mem_cons_self
    by_cases hc : ¬ ((pos v).sub (pos v0)).isTol τ ∧ ¬ ((unitV ((pos v1).sub (pos v0))).outer
        (((pos v).sub (pos v0)).normalize τ ((pos v).sub (pos v0))).2).isTol τ
    · rw [if_pos hc]
      obtain ⟨c1, c2⟩ := hc
      have u2 : (((pos v).sub (pos v0)).normalize τ ((pos v).sub (pos v0))).2 = unitV ((pos v).sub (pos v0)) := by
        unfold Vec3.normalize; rw [if_neg c1, normalizeNC_eq]
      rw [u2] at c2 ⊢
      have hnz : crossP (unitV ((pos v1).sub (pos v0))) (unitV ((pos v).sub (pos v0))) ≠ .zero := by
        intro e
        apply c2
        rw [isTol_iff_near]
        have : (unitV ((pos v1).sub (pos v0))).outer (unitV ((pos v).sub (pos v0))) = .zero := e
        rw [this]; exact near_zero_self h.tol
      have u3 : (((unitV ((pos v1).sub (pos v0))).outer (unitV ((pos v).sub (pos v0)))).normalize τ
          ((unitV ((pos v1).sub (pos v0))).outer (unitV ((pos v).sub (pos v0))))).2 =
          unitNormal (pos v0) (pos v1) (pos v) := by
        unfold Vec3.normalize
        rw [if_neg c2, normalizeNC_eq]
        exact unitV_cross hnz
      rw [u3]
      refine Or.inr ⟨v, l, [], rfl, rfl, by simp, fun e => hnz ?_⟩
      have h1 := congrArg Vec3.x e
      have h2 := congrArg Vec3.y e
      have h3 := congrArg Vec3.z e
      simp only [triNormal, Vec3.zero] at h1 h2 h3
      simp only [crossP, unitV, Vec3.zero, Vec3.sub]
      have key : ∀ x y z w r r' : ℝ, x * y - z * w = 0 → x / r * (y / r') - z / r * (w / r') = 0 := by
        intro x y z w r r' h
        rw [div_mul_div_comm, div_mul_div_comm, ← sub_div, h, zero_div]
      rw [key _ _ _ _ _ _ h1, key _ _ _ _ _ _ h2, key _ _ _ _ _ _ h3]
    · rw [if_neg hc]
      have e : triNormal (pos v0, pos v1, pos v) = .zero := by
        by_cases c1 : ((pos v).sub (pos v0)).isTol τ
        · rw [h.same _ hv _ h0 ((isTol_sub_iff _ _ _).1 c1)]; exact triNormal_same _ _
        · have u2 : (((pos v).sub (pos v0)).normalize τ ((pos v).sub (pos v0))).2 = unitV ((pos v).sub (pos v0)) := by
            unfold Vec3.normalize; rw [if_neg c1, normalizeNC_eq]
          rw [u2] at hc
          have c2 := not_not.1 fun c => hc ⟨c1, c⟩
          rw [isTol_iff_near] at c2
          exact h.bend _ h0 _ h1 _ hv c2
      rcases ih (fun w hw => hl w (List.mem_cons_of_mem _ hw)) (v :: rsv) with ⟨e1, e2⟩ | ⟨v2, l2, A, e1, rfl, e2, e3⟩
      · refine Or.inl ⟨e1, fun w hw => ?_⟩
        rcases List.mem_cons.1 hw with rfl | hw
        · exact e
        · exact e2 w hw
      · refine Or.inr ⟨v2, l2, v :: A, by rw [e1]; simp, rfl, fun w hw => ?_, e3⟩
        rcases List.mem_cons.1 hw with rfl | hw
        · exact e
        · exact e2 w hw

theorem fourth_spec (h : Res τ pos N) {v0 v1 v2 : ℕ} (h0 : v0 < N) (h1 : v1 < N) (h2 : v2 < N)
    (hn : triNormal (pos v0, pos v1, pos v2) ≠ .zero) (l : List ℕ) (hl : ∀ v ∈ l, v < N) :
    ∀ rsv, (fourth τ pos v0 (unitNormal (pos v0) (pos v1) (pos v2)) l rsv = none ∧
      ∀ v ∈ l, vol (pos v0) (pos v1) (pos v2) (pos v) = 0) ∨
    ∃ v3 l3 A, fourth τ pos v0 (unitNormal (pos v0) (pos v1) (pos v2)) l rsv =
        some (v3, dot (unitNormal (pos v0) (pos v1) (pos v2)) ((pos v3).sub (pos v0)), l3, A.reverse ++ rsv) ∧
      l = A ++ v3 :: l3 ∧ dot (unitNormal (pos v0) (pos v1) (pos v2)) ((pos v3).sub (pos v0)) ≠ 0 := by
  induction l with
  | nil => exact fun rsv => Or.inl ⟨rfl, by simp⟩
  | cons v l ih =>
    intro rsv
    have hin : ((pos v).sub (pos v0)).inner (unitNormal (pos v0) (pos v1) (pos v2)) =
        dot (unitNormal (pos v0) (pos v1) (pos v2)) ((pos v).sub (pos v0)) := by
      simp only [Vec3.inner, dot]; ring
    unfold fourth
    dsimp only
    rw [hin]
    by_cases hc : zIsTol (dot (unitNormal (pos v0) (pos v1) (pos v2)) ((pos v).sub (pos v0))) τ
    · rw [if_neg (not_not.2 hc)]
      have e := h.off _ h0 _ h1 _ h2 _ (hl v List.mem_cons_self) hn hc
      rcases ih (fun w hw => hl w (List.mem_cons_of_mem _ hw)) (v :: rsv) with ⟨e1, e2⟩ | ⟨v3, l3, A, e1, rfl, e3⟩
      · refine Or.inl ⟨e1, fun w hw => ?_⟩
        rcases List.mem_cons.1 hw with rfl | hw
        · exact e
        · exact e2 w hw
      · exact Or.inr ⟨v3, l3, v :: A, by rw [e1]; simp, rfl, e3⟩
    · rw [if_pos hc]
      refine Or.inr ⟨v, l, [], rfl, rfl, fun e => hc ?_⟩
      rw [e]; simpa [zIsTol] using h.tol

/-- The first simplex. -/
structure First (pos : ℕ → Vec3 ℝ) (N v0 v1 v2 v3 : ℕ) (pl : List ℕ) : Prop where
  inj : Function.Injective ![v0, v1, v2, v3]
  lt : ∀ i, ![v0, v1, v2, v3] i < N
  vol : vol (pos v0) (pos v1) (pos v2) (pos v3) < 0
  nodup : pl.Nodup
  mem : ∀ y ∈ pl, y < N ∧ ∀ i, ![v0, v1, v2, v3] i ≠ y
  all : ∀ y < N, y ∈ pl ∨ ∃ i, pos (![v0, v1, v2, v3] i) = pos y

theorem vals_inj {v0 v1 v2 v3 : ℕ} (h01 : v0 ≠ v1) (h02 : v0 ≠ v2) (h03 : v0 ≠ v3) (h12 : v1 ≠ v2) (h13 : v1 ≠ v3)
    (h23 : v2 ≠ v3) : Function.Injective ![v0, v1, v2, v3] := by
  intro i j hij
  fin_cases i <;> fin_cases j <;> simp_all

theorem simplexVert_spec (h : Res τ pos N) :
    (∃ k, k ≠ 3 ∧ simplexVert τ pos (List.range N) = .deg k ∧ ((∀ v < N, ∀ w < N, pos v = pos w) ∨
      ∃ a < N, ∃ b < N, pos b ≠ pos a ∧ ∀ v < N, triNormal (pos a, pos b, pos v) = .zero)) ∨
    (simplexVert τ pos (List.range N) = .deg 3 ∧ ∃ a < N, ∃ b < N, ∃ c < N,
      triNormal (pos a, pos b, pos c) ≠ .zero ∧ ∀ v < N, vol (pos a) (pos b) (pos c) (pos v) = 0) ∨
    ∃ v0 v1 v2 v3 pl, simplexVert τ pos (List.range N) = .full v0 v1 v2 v3 pl ∧ First pos N v0 v1 v2 v3 pl := by
  have hmem : ∀ v, v ∈ List.range N ↔ v < N := fun v => List.mem_range
  have hnd : (List.range N).Nodup := List.nodup_range
  cases hr : List.range N with
  | nil =>
    rw [hr] at hmem
    refine Or.inl ⟨0, by decide, rfl, Or.inl fun v hv => ?_⟩
    exact absurd ((hmem v).2 hv) List.not_mem_nil
  | cons v0 l =>
    rw [hr] at hmem hnd
    have h0 : v0 < N := (hmem v0).1 List.mem_cons_self
    have hl : ∀ v ∈ l, v < N := fun v hv => (hmem v).1 (List.mem_cons_of_mem _ hv)
    unfold simplexVert
    rcases second_spec h h0 l hl with ⟨e1, e2⟩ | ⟨v1, l1, A0, e1, rfl, e2, hne⟩
    · left
      simp only [e1]
      refine ⟨1, by decide, rfl, Or.inl ?_⟩
      have : ∀ v < N, pos v = pos v0 := by
        intro v hv
        rcases List.mem_cons.1 ((hmem v).2 hv) with rfl | hv
        · rfl
        · exact e2 v hv
      intro v hv w hw
      rw [this v hv, this w hw]
    · have h1 : v1 < N := hl v1 (by simp)
      have ht1 : ¬ ((pos v1).sub (pos v0)).isTol τ := fun hc => hne (h.same _ h1 _ h0 ((isTol_sub_iff _ _ _).1 hc))
      have u1 : (((pos v1).sub (pos v0)).normalize τ ((pos v1).sub (pos v0))).2 = unitV ((pos v1).sub (pos v0)) := by
        unfold Vec3.normalize; rw [if_neg ht1, normalizeNC_eq]
      simp only [e1, u1]
      have hl1 : ∀ v ∈ l1, v < N := fun v hv => hl v (by simp [hv])
      rcases third_spec h h0 h1 l1 hl1 [] with ⟨e3, e4⟩ | ⟨v2, l2, A1, e3, rfl, e4, hn⟩
      · left
        simp only [e3]
        refine ⟨2, by decide, rfl, Or.inr ⟨v0, h0, v1, h1, hne, fun v hv => ?_⟩⟩
        have := (hmem v).2 hv
        simp only [List.mem_cons, List.mem_append] at this
        rcases this with rfl | hv | rfl | hv
        · exact triNormal_same _ _
        · rw [e2 v hv]; exact triNormal_same _ _
        · exact triNormal_same' _ _
        · exact e4 v hv
      · have h2 : v2 < N := hl1 v2 (by simp)
        have hl2 : ∀ v ∈ l2, v < N := fun v hv => hl1 v (by simp [hv])
        simp only [e3]
        have flat : ∀ v, triNormal (pos v0, pos v1, pos v) = .zero → vol (pos v0) (pos v1) (pos v2) (pos v) = 0 := by
          intro v hv
          rw [← neg_eq_zero, ← vol_swap34]
          unfold vol
          rw [hv]; simp [dot, Vec3.zero]
        rcases fourth_spec h h0 h1 h2 hn l2 hl2 (A1.reverse ++ []) with ⟨e5, e6⟩ | ⟨v3, l3, A2, e5, rfl, hd⟩
        · right; left
          simp only [e5]
          refine ⟨trivial, v0, h0, v1, h1, v2, h2, hn, fun v hv => ?_⟩
          have := (hmem v).2 hv
          simp only [List.mem_cons, List.mem_append] at this
          rcases this with rfl | hv | rfl | hv | rfl | hv
          · exact vol_self1 _ _ _
          · rw [e2 v hv]; exact vol_self1 _ _ _
          · exact vol_self2 _ _ _
          · exact flat v (e4 v hv)
          · exact vol_self3 _ _ _
          · exact e6 v hv
        · right; right
          have h3 : v3 < N := hl2 v3 (by simp)
          simp only [e5]
          simp only [List.nodup_cons, List.nodup_append, List.mem_cons, List.mem_append, not_or] at hnd
          have hpl : (l3 ++ (A2.reverse ++ (A1.reverse ++ []))).Nodup := by
            simp only [List.append_nil, List.nodup_append, List.mem_append, List.mem_reverse, List.nodup_reverse]
            grind
          have n01 : v0 ≠ v1 := by grind
          have n02 : v0 ≠ v2 := by grind
          have n03 : v0 ≠ v3 := by grind
          have n12 : v1 ≠ v2 := by grind
          have n13 : v1 ≠ v3 := by grind
          have n23 : v2 ≠ v3 := by grind
          have hout : ∀ y ∈ l3 ++ (A2.reverse ++ (A1.reverse ++ [])), y < N ∧ v0 ≠ y ∧ v1 ≠ y ∧ v2 ≠ y ∧ v3 ≠ y := by
            intro y hy
            simp only [List.append_nil, List.mem_append, List.mem_reverse] at hy
            refine ⟨(hmem y).1 (by simp only [List.mem_cons, List.mem_append]; tauto), ?_⟩
            grind
          have hall : ∀ y < N, y ∈ l3 ++ (A2.reverse ++ (A1.reverse ++ [])) ∨ pos v0 = pos y ∨ pos v1 = pos y ∨
              pos v2 = pos y ∨ pos v3 = pos y := by
            intro y hy
            have := (hmem y).2 hy
            simp only [List.append_nil, List.mem_cons, List.mem_append, List.mem_reverse] at this ⊢
            rcases this with rfl | hv | rfl | hv | rfl | hv | rfl | hv
            · exact Or.inr (Or.inl rfl)
            · exact Or.inr (Or.inl (e2 y hv).symm)
            · exact Or.inr (Or.inr (Or.inl rfl))
            · exact Or.inl (Or.inr (Or.inr hv))
            · exact Or.inr (Or.inr (Or.inr (Or.inl rfl)))
            · exact Or.inl (Or.inr (Or.inl hv))
            · exact Or.inr (Or.inr (Or.inr (Or.inr rfl)))
            · exact Or.inl (Or.inl hv)
          have fin4 : ∀ {Q : Fin 4 → Prop}, Q 0 → Q 1 → Q 2 → Q 3 → ∀ i, Q i := by
            intro Q q0 q1 q2 q3 i; fin_cases i <;> assumption
          split
          · rename_i hp
            refine ⟨v1, v0, v2, v3, _, rfl, vals_inj n01.symm n12 n13 n02 n03 n23, fin4 h1 h0 h2 h3, ?_, hpl, ?_, ?_⟩
            · rw [vol_swap]
              have := height_pos.1 hp
              linarith
            · intro y hy
              obtain ⟨k, k0, k1, k2, k3⟩ := hout y hy
              exact ⟨k, fin4 k1 k0 k2 k3⟩
            · intro y hy
              rcases hall y hy with k | k | k | k | k
              · exact Or.inl k
              · exact Or.inr ⟨1, k⟩
              · exact Or.inr ⟨0, k⟩
              · exact Or.inr ⟨2, k⟩
              · exact Or.inr ⟨3, k⟩
          · rename_i hp
            refine ⟨v0, v1, v2, v3, _, rfl, vals_inj n01 n02 n03 n12 n13 n23, fin4 h0 h1 h2 h3,
              height_neg (lt_of_le_of_ne (not_lt.1 hp) hd), hpl, ?_, ?_⟩
            · intro y hy
              obtain ⟨k, k0, k1, k2, k3⟩ := hout y hy
              exact ⟨k, fin4 k0 k1 k2 k3⟩
            · intro y hy
              rcases hall y hy with k | k | k | k | k
              · exact Or.inl k
              · exact Or.inr ⟨0, k⟩
              · exact Or.inr ⟨1, k⟩
              · exact Or.inr ⟨2, k⟩
              · exact Or.inr ⟨3, k⟩

/-- Corners, neighbours and opposite vertices of the simplex. -/
def sk : Fin 4 → Fin 3 → Fin 4 := ![![0, 1, 2], ![0, 3, 1], ![1, 3, 2], ![2, 3, 0]]
def sc : Fin 4 → Fin 3 → Fin 4 := ![![2, 3, 1], ![2, 0, 3], ![3, 0, 1], ![1, 0, 2]]
def sw : Fin 4 → Fin 4 := ![3, 2, 0, 1]

theorem sk_inj : ∀ f s t, sk f s = sk f t → s = t := by decide
theorem sk_adj : ∀ f s, ∃ t, sc (sc f s) t = f ∧ sk (sc f s) (t + 1) = sk f (s + 2) ∧ sk (sc f s) (t + 2) = sk f (s + 1) ∧
    sk (sc f s) t ≠ sk f s := by decide
theorem sk_uni : ∀ f g s t, sk f (s + 1) = sk g (t + 1) → sk f (s + 2) = sk g (t + 2) → f = g ∧ s = t := by decide
theorem sk_sw : ∀ f i, (∀ s, sk f s ≠ i) → i = sw f := by decide
theorem sk_sur : ∀ i, ∃ f s, sk f s = i := by decide

variable {v0 v1 v2 v3 : ℕ}

theorem simplex_P (i : Fin 4) (s : Fin 3) : P (simplex τ pos v0 v1 v2 v3) i s = ![v0, v1, v2, v3] (sk i s) := by
  fin_cases i <;> fin_cases s <;> rfl

theorem simplex_C (i : Fin 4) (s : Fin 3) : C (simplex τ pos v0 v1 v2 v3) i s = some (sc i s : ℕ) := by
  fin_cases i <;> fin_cases s <;> rfl

theorem simplex_vol (i : Fin 4) : D pos (P (simplex τ pos v0 v1 v2 v3)) i (![v0, v1, v2, v3] (sw i)) =
    vol (pos v0) (pos v1) (pos v2) (pos v3) := by
  unfold D
  simp only [simplex_P]
  fin_cases i
  · rfl
  · show vol (pos v0) (pos v3) (pos v1) (pos v2) = _
    simp only [vol_eq]; ring
  · show vol (pos v1) (pos v3) (pos v2) (pos v0) = _
    simp only [vol_eq]; ring
  · show vol (pos v2) (pos v3) (pos v0) (pos v1) = _
    simp only [vol_eq]; ring

theorem simplex_fac (i : Fin 4) : NormalOK pos ((simplex τ pos v0 v1 v2 v3).fac i) ∧
    ((simplex τ pos v0 v1 v2 v3).fac i).merge = (fun _ => false) ∧ ((simplex τ pos v0 v1 v2 v3).fac i).op = [] ∧
    ((simplex τ pos v0 v1 v2 v3).fac i).visible = false ∧ ((simplex τ pos v0 v1 v2 v3).fac i).check = false := by
  fin_cases i
  · exact ⟨facetCreate_normal (τ := τ) v0 v1 v2, rfl, rfl, rfl, rfl⟩
  · exact ⟨facetCreate_normal (τ := τ) v0 v3 v1, rfl, rfl, rfl, rfl⟩
  · exact ⟨facetCreate_normal (τ := τ) v1 v3 v2, rfl, rfl, rfl, rfl⟩
  · exact ⟨facetCreate_normal (τ := τ) v2 v3 v0, rfl, rfl, rfl, rfl⟩

theorem mem_four {i : ℕ} : i ∈ [0, 1, 2, 3] ↔ ∃ k : Fin 4, i = k := by
  constructor
  · intro h
    simp only [List.mem_cons, List.not_mem_nil, or_false] at h
    exact ⟨⟨i, by omega⟩, rfl⟩
  · rintro ⟨k, rfl⟩; fin_cases k <;> simp

theorem mem_vals {v : ℕ} : v ∈ [v0, v1, v2, v3] ↔ ∃ i, v = ![v0, v1, v2, v3] i := by
  constructor
  · intro h
    simp only [List.mem_cons, List.not_mem_nil, or_false] at h
    rcases h with rfl | rfl | rfl | rfl
    · exact ⟨0, rfl⟩
    · exact ⟨1, rfl⟩
    · exact ⟨2, rfl⟩
    · exact ⟨3, rfl⟩
  · rintro ⟨i, rfl⟩; fin_cases i <;> simp

theorem sw_sur : ∀ i, ∃ k, sw k = i := by decide

/-- The centroid of four points. -/
def centroid (a b c d : Vec3 ℝ) : Vec3 ℝ :=
  ⟨(a.x + b.x + c.x + d.x) / 4, (a.y + b.y + c.y + d.y) / 4, (a.z + b.z + c.z + d.z) / 4⟩

/-- The invariant after the first distribution of the points. -/
theorem init_inv (h : Res τ pos N) {pl : List ℕ} (F : First pos N v0 v1 v2 v3 pl) :
    Inv τ pos N (centroid (pos v0) (pos v1) (pos v2) (pos v3))
        (assign τ pos (simplex τ pos v0 v1 v2 v3) (simplex τ pos v0 v1 v2 v3).fl pl).1 ∧
      ∀ y, y ∉ pl → y < N →
        Done N (assign τ pos (simplex τ pos v0 v1 v2 v3) (simplex τ pos v0 v1 v2 v3).fl pl).1 y := by
  have hv := F.inj
  have hb := F.lt
  have hvol := F.vol
  have hnd := F.nodup
  have hpl := F.mem
  set S := simplex τ pos v0 v1 v2 v3 with hS
  have hfl : S.fl = [0, 1, 2, 3] := rfl
  have hinjP : ∀ i : Fin 4, Function.Injective (S.fac i).p := by
    intro i s t e
    have : P S i s = P S i t := e
    rw [simplex_P, simplex_P] at this
    exact sk_inj i s t (hv this)
  have hltP : ∀ (i : Fin 4) s, (S.fac i).p s < N := by
    intro i s
    have := simplex_P (τ := τ) (pos := pos) (v0 := v0) (v1 := v1) (v2 := v2) (v3 := v3) i s
    exact lt_of_eq_of_lt this (hb _)
  have hprop : ∀ i : Fin 4, triNormal (pos ((S.fac i).p 0), pos ((S.fac i).p 1), pos ((S.fac i).p 2)) ≠ .zero := by
    intro i
    refine proper_of_vol (x := pos (![v0, v1, v2, v3] (sw i))) ?_
    have := simplex_vol (τ := τ) (pos := pos) (v0 := v0) (v1 := v1) (v2 := v2) (v3 := v3) i
    exact (lt_of_eq_of_lt this hvol).ne
  have htest : ∀ i : Fin 4, ∀ y ∈ pl, (0 ≤ D pos (P S) i y ∧ testBB τ pos (S.fac i) y = 1 ∧ _) ∨
      (D pos (P S) i y < 0 ∧ testBB τ pos (S.fac i) y = -1) ∨
      (pos y ∈ triangle (pos (P S i 0)) (pos (P S i 1)) (pos (P S i 2)) ∧ testBB τ pos (S.fac i) y = 0) :=
    fun i y hy => h.test (simplex_fac i).1 (hltP i) (hprop i) (hpl y hy).1
  obtain ⟨q, rest, e, ha⟩ := assign_spec (τ := τ) (pos := pos) S.fl S pl (by rw [hfl]; decide) hnd
    (by
      intro i hi
      obtain ⟨k, rfl⟩ := mem_four.1 hi
      exact (simplex_fac k).2.2.1)
  rw [e]
  dsimp only
  have hqfl : q.fl = [0, 1, 2, 3] := ha.fl
  have hin : ∀ k : Fin 4, (k : ℕ) ∈ S.fl := fun k => mem_four.2 ⟨k, rfl⟩
  have hP : ∀ (k : Fin 4) s, P q k s = ![v0, v1, v2, v3] (sk k s) := by
    intro k s
    rw [← simplex_P (τ := τ) (pos := pos)]
    unfold P
    rw [ha.same _ (hin k)]
  have hC : ∀ (k : Fin 4) s, C q k s = some (sc k s : ℕ) := by
    intro k s
    rw [← simplex_C (τ := τ) (pos := pos) (v0 := v0) (v1 := v1) (v2 := v2) (v3 := v3)]
    unfold C
    rw [ha.same _ (hin k)]
  have hD : ∀ (k : Fin 4) y, D pos (P q) k y = D pos (P S) k y := by
    intro k y
    unfold D
    simp only [hP, hS, simplex_P]
  have hnot : ∀ y, y ∉ pl → y < N → Done N q y := by
    intro y hy hyN
    refine ⟨hyN, fun f hf hm => hy ?_⟩
    rw [hqfl] at hf
    obtain ⟨k, rfl⟩ := mem_four.1 hf
    exact (ha.mem _ (hin k) _ hm).1
  have hdone : ∀ i, Done N q (![v0, v1, v2, v3] i) := fun i => hnot _ (fun hm => (hpl _ hm).2 i rfl) (hb i)
  have hval : ∀ (k : Fin 4) i, D pos (P q) k (![v0, v1, v2, v3] i) = if i = sw k then
      vol (pos v0) (pos v1) (pos v2) (pos v3) else 0 := by
    intro k i
    rw [hD]
    split
    · rename_i e; rw [e, hS, simplex_vol]
    · rename_i e
      obtain ⟨s, rfl⟩ : ∃ s, sk k s = i := by
        by_contra hc
        push Not at hc
        exact e (sk_sw k i hc)
      rw [← hP, ← hD]
      exact vol_tri_zero (corner_mem pos (P q) k s)
  have hle : ∀ (k : Fin 4) i, D pos (P q) k (![v0, v1, v2, v3] i) ≤ 0 := by
    intro k i; rw [hval]; split
    · exact hvol.le
    · exact le_rfl
  have hpos : ∀ i j, pos (![v0, v1, v2, v3] i) = pos (![v0, v1, v2, v3] j) → i = j := by
    intro i j e
    obtain ⟨k, rfl⟩ : ∃ k, sw k = i := sw_sur i
    have h1 := hval k (sw k)
    have h2 := hval k j
    rw [if_pos rfl] at h1
    unfold D at h1 h2
    rw [e] at h1
    rw [h1] at h2
    by_contra hne
    rw [if_neg (Ne.symm hne)] at h2
    exact hvol.ne h2
  have hinner : ∀ k : Fin 4, H pos (P q) k (centroid (pos v0) (pos v1) (pos v2) (pos v3)) < 0 := by
    intro k
    have e : H pos (P q) k (centroid (pos v0) (pos v1) (pos v2) (pos v3)) =
        (D pos (P q) k (![v0, v1, v2, v3] 0) + D pos (P q) k (![v0, v1, v2, v3] 1) +
          D pos (P q) k (![v0, v1, v2, v3] 2) + D pos (P q) k (![v0, v1, v2, v3] 3)) / 4 := by
      show vol _ _ _ _ = (vol _ _ _ (pos v0) + vol _ _ _ (pos v1) + vol _ _ _ (pos v2) + vol _ _ _ (pos v3)) / 4
      simp only [vol_eq, centroid]; ring
    have h0 := hle k 0
    have h1 := hle k 1
    have h2 := hle k 2
    have h3 := hle k 3
    have hs : D pos (P q) k (![v0, v1, v2, v3] (sw k)) < 0 := by rw [hval, if_pos rfl]; exact hvol
    rw [e]
    rcases ((by decide : ∀ i : Fin 4, i = 0 ∨ i = 1 ∨ i = 2 ∨ i = 3) (sw k)) with e | e | e | e <;>
      (rw [e] at hs; linarith)
  have hweak : ∀ f ∈ q.fl, ∀ y, Done N q y → D pos (P q) f y ≤ 0 := by
    intro f hf y hy
    rw [hqfl] at hf
    obtain ⟨k, rfl⟩ := mem_four.1 hf
    rcases F.all y hy.1 with hypl | ⟨i, e⟩
    · rcases ha.all y hypl with hr | ⟨j, hj, hm⟩ | ⟨j, hj, hz⟩
      · have := (ha.left y hr).2 _ (hin k)
        rw [hD]
        rcases htest k y hypl with ⟨-, e, -⟩ | ⟨e, -⟩ | ⟨-, e⟩
        · rw [e] at this; exact absurd this (by decide)
        · exact e.le
        · rw [e] at this; exact absurd this (by decide)
      · exact (hy.2 j (by rw [ha.fl]; exact hj) hm).elim
      · obtain ⟨l, rfl⟩ := mem_four.1 hj
        rcases htest l y hypl with ⟨-, e, -⟩ | ⟨-, e⟩ | ⟨hm, -⟩
        · rw [e] at hz; exact absurd hz (by decide)
        · rw [e] at hz; exact absurd hz (by decide)
        · have hPS : ∀ s, P S l s = ![v0, v1, v2, v3] (sk l s) := fun s => simplex_P l s
          rw [hPS, hPS, hPS] at hm
          exact vol_tri_le (hle k _) (hle k _) (hle k _) hm
    · unfold D; rw [← e]; exact hle k i
  have hmemF : ∀ f, f ∈ q.fl.toFinset ↔ ∃ k : Fin 4, f = k := by
    intro f; rw [List.mem_toFinset, hqfl]; exact mem_four
  have hcx : Complex q.fl.toFinset (P q) (C q) := by
    refine ⟨?_, ?_, ?_⟩
    · intro f hf s t est
      obtain ⟨k, rfl⟩ := (hmemF f).1 hf
      rw [hP, hP] at est
      exact sk_inj k s t (hv est)
    · intro f hf s
      obtain ⟨k, rfl⟩ := (hmemF f).1 hf
      obtain ⟨t, e1, e2, e3, e4⟩ := sk_adj k s
      refine ⟨(sc k s : ℕ), (hmemF _).2 ⟨_, rfl⟩, t, hC k s, ?_, ?_, ?_, ?_⟩
      · rw [hC, e1]
      · rw [hP, hP, e2]
      · rw [hP, hP, e3]
      · rw [hP, hP]; exact fun he => e4 (hv he)
    · intro f hf g hg s t e1 e2
      obtain ⟨k, rfl⟩ := (hmemF f).1 hf
      obtain ⟨l, rfl⟩ := (hmemF g).1 hg
      rw [hP, hP] at e1 e2
      obtain ⟨h1, h2⟩ := sk_uni k l s t (hv e1) (hv e2)
      exact ⟨by rw [h1], h2⟩
  refine ⟨⟨h, ?_, ?_, hcx, ?_, ?_, ?_, ?_, ?_, ?_, hweak, ?_, ?_, ?_, ?_, ?_, ?_, ?_, ?_, ?_, ?_⟩, hnot⟩
  · rw [hqfl]; decide
  · intro f hf
    rw [hqfl] at hf
    obtain ⟨k, rfl⟩ := mem_four.1 hf
    rw [ha.nf]
    exact k.2
  · intro f hf
    rw [hqfl] at hf
    obtain ⟨k, rfl⟩ := mem_four.1 hf
    rw [ha.same _ (hin k)]; exact (simplex_fac k).1
  · intro f hf
    rw [hqfl] at hf
    obtain ⟨k, rfl⟩ := mem_four.1 hf
    intro s g hm
    rw [ha.same _ (hin k)] at hm
    rw [show (S.fac k).merge = _ from (simplex_fac k).2.1] at hm
    cases hm
  · intro f hf
    rw [hqfl] at hf
    obtain ⟨k, rfl⟩ := mem_four.1 hf
    rw [ha.same _ (hin k)]; exact ⟨(simplex_fac k).2.2.2.1, (simplex_fac k).2.2.2.2⟩
  · intro f hf y hy
    rw [hqfl] at hf
    obtain ⟨k, rfl⟩ := mem_four.1 hf
    obtain ⟨h1, -, h3⟩ := ha.mem _ (hin k) y hy
    refine ⟨(hpl y h1).1, ?_⟩
    rw [hD]
    rcases htest k y h1 with ⟨e, -⟩ | ⟨-, e⟩ | ⟨-, e⟩
    · exact e
    · rw [e] at h3; exact absurd h3 (by decide)
    · rw [e] at h3; exact absurd h3 (by decide)
  · intro f hf
    exact ha.nodup f (by rw [← ha.fl]; exact hf)
  · intro f hf g hg
    exact ha.disj f (by rw [← ha.fl]; exact hf) g (by rw [← ha.fl]; exact hg)
  · intro f hf
    rw [hqfl] at hf
    obtain ⟨k, rfl⟩ := mem_four.1 hf
    exact hinner k
  · intro δ hδ
    refine ⟨pos, fun v => ⟨by simpa using hδ.le, by simpa using hδ.le, by simpa using hδ.le⟩, ?_⟩
    intro f hf y hy hys
    rw [hqfl] at hf
    obtain ⟨k, rfl⟩ := mem_four.1 hf
    rw [ha.vl] at hy
    obtain ⟨i, rfl⟩ := mem_vals.1 hy
    rw [hval, if_pos (sk_sw k i fun s e => hys s (by rw [hP, e]))]
    exact hvol
  · rw [ha.vl]
    show [v0, v1, v2, v3].Nodup
    have h01 : v0 ≠ v1 := fun e => absurd (hv (a₁ := 0) (a₂ := 1) e) (by decide)
    have h02 : v0 ≠ v2 := fun e => absurd (hv (a₁ := 0) (a₂ := 2) e) (by decide)
    have h03 : v0 ≠ v3 := fun e => absurd (hv (a₁ := 0) (a₂ := 3) e) (by decide)
    have h12 : v1 ≠ v2 := fun e => absurd (hv (a₁ := 1) (a₂ := 2) e) (by decide)
    have h13 : v1 ≠ v3 := fun e => absurd (hv (a₁ := 1) (a₂ := 3) e) (by decide)
    have h23 : v2 ≠ v3 := fun e => absurd (hv (a₁ := 2) (a₂ := 3) e) (by decide)
    simp [h01, h02, h03, h12, h13, h23]
  · intro v hv'
    rw [ha.vl] at hv'
    obtain ⟨i, rfl⟩ := mem_vals.1 hv'
    exact hdone i
  · intro f hf s
    rw [hqfl] at hf
    obtain ⟨k, rfl⟩ := mem_four.1 hf
    rw [hP, ha.vl]
    exact mem_vals.2 ⟨_, rfl⟩
  · intro v hv'
    rw [ha.vl] at hv'
    obtain ⟨i, rfl⟩ := mem_vals.1 hv'
    rw [ha.disc]
    refine ⟨fun _ => ?_, fun _ => rfl⟩
    obtain ⟨k, s, e⟩ := sk_sur i
    exact ⟨k, by rw [hqfl]; exact mem_four.2 ⟨k, rfl⟩, s, by rw [hP, e]⟩
  · intro v _
    rw [ha.disc]; rfl
  · rw [hqfl]; simp
  · intro _ f hf g hg s t e
    rw [hqfl] at hf hg
    obtain ⟨k, rfl⟩ := mem_four.1 hf
    obtain ⟨l, rfl⟩ := mem_four.1 hg
    rw [hP, hP] at e ⊢
    rw [hpos _ _ e]
  · intro _ f hf s
    rw [hqfl] at hf
    obtain ⟨k, rfl⟩ := mem_four.1 hf
    rw [hP]
    set j := sk k s
    obtain ⟨f1, hf1⟩ : ∃ k, sw k = j := sw_sur j
    set n1 := triNormal (pos (P q f1 0), pos (P q f1 1), pos (P q f1 2)) with hn1
    have hdot : ∀ a b : Vec3 ℝ, dot ⟨-n1.x, -n1.y, -n1.z⟩ a - dot ⟨-n1.x, -n1.y, -n1.z⟩ b =
        H pos (P q) f1 b - H pos (P q) f1 a := by
      intro a b
      simp only [H, vol, ← hn1, dot, Vec3.sub]; ring
    refine ⟨⟨-n1.x, -n1.y, -n1.z⟩, fun y hy hyv => ?_⟩
    refine ext_done (pos := pos) (K := centroid (pos v0) (pos v1) (pos v2) (pos v3)) hcx ⟨f1, (hmemF _).2 ⟨f1, rfl⟩⟩ ?_ ?_ ?_ hyv
    · intro f hf
      obtain ⟨k, rfl⟩ := (hmemF f).1 hf
      exact hinner k
    · exact fun f hf => hweak f (List.mem_toFinset.1 hf) y hy
    · intro f hf u hu
      obtain ⟨k, rfl⟩ := (hmemF f).1 hf
      rw [hP] at hu ⊢
      have h1 := hdot (pos (![v0, v1, v2, v3] (sk k u))) (pos (![v0, v1, v2, v3] j))
      have h2 : H pos (P q) f1 (pos (![v0, v1, v2, v3] j)) = vol (pos v0) (pos v1) (pos v2) (pos v3) := by
        have := hval f1 j
        rw [if_pos hf1.symm] at this; exact this
      have h3 : H pos (P q) f1 (pos (![v0, v1, v2, v3] (sk k u))) = 0 := by
        have := hval f1 (sk k u)
        rw [if_neg (by rw [hf1]; intro e; exact hu (by rw [e]))] at this; exact this
      rw [h2, h3] at h1
      linarith

/-- The finished hull. -/
structure Hull (τ : ℝ) (pos : ℕ → Vec3 ℝ) (N : ℕ) (q : QH) : Prop where
  cx : Complex q.fl.toFinset (P q) (C q)
  nodup : q.fl.Nodup
  normal : ∀ f ∈ q.fl, NormalOK pos (q.fac f)
  corner : ∀ f ∈ q.fl, ∀ s, P q f s < N
  weak : ∀ f ∈ q.fl, ∀ x < N, D pos (P q) f x ≤ 0
  inner : ∃ K, ∀ f ∈ q.fl, H pos (P q) f K < 0
  vlnd : q.vl.Nodup
  vl : ∀ v, v ∈ q.vl ↔ ∃ f ∈ q.fl, ∃ s, P q f s = v
  ne : q.fl ≠ []
  dist : (0 < τ ∨ ∀ a < N, ∀ b < N, pos a = pos b → a = b) → ∀ v ∈ q.vl, ∀ w ∈ q.vl, pos v = pos w → v = w
  ext : 0 < τ → ∀ v ∈ q.vl, ∃ w, ∀ y < N, pos y ≠ pos v → dot w (pos y) < dot w (pos v)
  cover : ∀ y, (∀ f ∈ q.fl, H pos (P q) f y ≤ 0) → (∃ f ∈ q.fl, H pos (P q) f y = 0) →
    ∃ f ∈ q.fl, y ∈ triangle (pos (P q f 0)) (pos (P q f 1)) (pos (P q f 2))

theorem create_spec (h : Res τ pos N) {pl : List ℕ} (F : First pos N v0 v1 v2 v3 pl) :
    Hull τ pos N (create τ pos v0 v1 v2 v3 pl) := by
  obtain ⟨hi, hd⟩ := init_inv h F
  obtain ⟨g, hop⟩ := grow_spec (pl.length + 1) _ hi (by
    unfold todo
    refine Nat.lt_succ_of_le ?_
    have : ((Finset.range N).filter fun x => ¬ Done N
        (assign τ pos (simplex τ pos v0 v1 v2 v3) (simplex τ pos v0 v1 v2 v3).fl pl).1 x) ⊆ pl.toFinset := by
      intro y hy
      rw [Finset.mem_filter, Finset.mem_range] at hy
      rw [List.mem_toFinset]
      by_contra hc
      exact hy.2 (hd y hc hy.1)
    exact (Finset.card_le_card this).trans (List.toFinset_card_le _))
  have hall : ∀ x < N, Done N (grow τ pos (pl.length + 1)
      (assign τ pos (simplex τ pos v0 v1 v2 v3) (simplex τ pos v0 v1 v2 v3).fl pl).1) x := by
    intro x hx
    refine ⟨hx, fun f hf => ?_⟩
    rw [hop f hf]; exact List.not_mem_nil
  unfold create
  dsimp only
  set Q := grow τ pos (pl.length + 1)
      (assign τ pos (simplex τ pos v0 v1 v2 v3) (simplex τ pos v0 v1 v2 v3).fl pl).1
  have hvl : ∀ v, v ∈ Q.vl.filter (fun v => ¬ Q.discard v) ↔ ∃ f ∈ Q.fl, ∃ s, P Q f s = v := by
    intro v
    rw [List.mem_filter]
    simp only [Bool.not_eq_true, decide_eq_true_eq]
    constructor
    · rintro ⟨h1, h2⟩
      exact (g.disc v h1).1 h2
    · rintro ⟨f, hf, s, e⟩
      have := g.cvl f hf s
      rw [e] at this
      exact ⟨this, (g.disc v this).2 ⟨f, hf, s, e⟩⟩
  refine ⟨g.cx, g.nodup, g.normal, fun f hf s => (g.corner hf s).1, fun f hf x hx => g.weak f hf x (hall x hx),
    ⟨_, g.inner⟩, g.vlnd.filter _, hvl, g.ne, ?_, ?_, ?_⟩
  · intro hc v hv w hw e
    obtain ⟨f, hf, s, rfl⟩ := (hvl v).1 hv
    obtain ⟨f', hf', s', rfl⟩ := (hvl w).1 hw
    exact g.dist hc f hf f' hf' s s' e
  · intro ht v hv
    obtain ⟨f, hf, s, rfl⟩ := (hvl v).1 hv
    obtain ⟨w, hw⟩ := g.ext ht f hf s
    exact ⟨w, fun y hy => hw y (hall y hy)⟩
  · rintro y hy ⟨f, hf, h0⟩
    obtain ⟨k, hk, hm⟩ := cover (x := y) g.cx (pos := pos) (K := _) (by
      intro δ hδ
      obtain ⟨ps, h1, h2⟩ := g.pert δ hδ
      exact ⟨ps, h1, fun f hf k hk s => h2 f (List.mem_toFinset.1 hf) _ (g.cvl k (List.mem_toFinset.1 hk) s)⟩)
      (fun f hf k hk s => g.weak f (List.mem_toFinset.1 hf) _ (g.corner (List.mem_toFinset.1 hk) s))
      (fun f hf => g.inner f (List.mem_toFinset.1 hf)) (fun k hk => hy k (List.mem_toFinset.1 hk))
      (List.mem_toFinset.2 hf) h0
    exact ⟨k, List.mem_toFinset.1 hk, hm⟩

end
end Zeo.QHMesh

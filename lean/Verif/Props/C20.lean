import Verif.Lemmas.Triangle
import Verif.Props.C19

/-! # C20: the closest point of a triangle -/

namespace Zeo

/-- What a result record has to satisfy for the triangle `v0 v1 v2`: valid barycentric weights of the
point, and the returned value is the distance of the point. -/
def TriValid (v0 v1 v2 : Vec3 ℝ) (r : TriRes3) : Prop :=
  r.dist = Spec.ed .zero r.cp ∧ 0 ≤ r.s0 ∧ 0 ≤ r.s1 ∧ 0 ≤ r.s2 ∧ r.s0 + r.s1 + r.s2 = 1 ∧
    r.cp = Spec.comb r.s0 r.s1 r.s2 0 v0 v1 v2 v0

/-- Loop invariant of the edge tests: the best record so far is at least as near as every point of `S`. -/
private def Best (v0 v1 v2 : Vec3 ℝ) (S : Set (Vec3 ℝ)) : Option TriRes3 → Prop
  | none => S = ∅
  | some r => TriValid v0 v1 v2 r ∧ ∀ q ∈ S, Spec.sqd .zero r.cp ≤ Spec.sqd .zero q

private theorem ed_lt_iff {p q r s : Vec3 ℝ} : Spec.ed p q < Spec.ed r s ↔ Spec.sqd p q < Spec.sqd r s :=
  Real.sqrt_lt_sqrt_iff (sqd_nonneg _ _)

private theorem best_step {v0 v1 v2 va vb : Vec3 ℝ} {S : Set (Vec3 ℝ)} {best : Option TriRes3}
    {mk : ℝ → ℝ → ℝ × ℝ × ℝ} (hb : Best v0 v1 v2 S best)
    (hmk : ∀ a b, 0 ≤ a → 0 ≤ b → a + b = 1 → 0 ≤ (mk a b).1 ∧ 0 ≤ (mk a b).2.1 ∧ 0 ≤ (mk a b).2.2 ∧
      (mk a b).1 + (mk a b).2.1 + (mk a b).2.2 = 1 ∧
      Spec.comb a b 0 0 va vb va va = Spec.comb (mk a b).1 (mk a b).2.1 (mk a b).2.2 0 v0 v1 v2 v0) :
    Best v0 v1 v2 (S ∪ {q | va ≠ vb ∧ q ∈ Spec.segment va vb}) (Tri3.testEdge va vb mk best) := by
  by_cases hne : va = vb
  · have e0 : Edge3.closestFromOrigin va vb = none := by
      subst hne
      unfold Edge3.closestFromOrigin
      rw [if_pos]
      simp only [zeo]; ring
    have : S ∪ {q | va ≠ vb ∧ q ∈ Spec.segment va vb} = S := by
      ext q; simp [hne]
    rw [this, Tri3.testEdge, e0]; exact hb
  · obtain ⟨r, hr, ⟨hm, hn⟩, hd, h0, h1, hs, hc⟩ := C19_fromOrigin va vb hne
    obtain ⟨m0, m1, m2, ms, mc⟩ := hmk r.s0 r.s1 h0 h1 hs
    rw [Tri3.testEdge, hr]
    dsimp only
    cases best with
    | none =>
      rw [if_pos (by trivial)]
      refine ⟨⟨hd, m0, m1, m2, ms, hc.trans mc⟩, ?_⟩
      have hS : S = ∅ := hb
      rintro q (hq | ⟨-, hq⟩)
      · rw [hS] at hq; exact hq.elim
      · exact hn q hq
    | some b =>
      obtain ⟨hv, hb⟩ := hb
      by_cases hlt : r.dist < b.dist
      · rw [if_pos (by exact hlt)]
        refine ⟨⟨hd, m0, m1, m2, ms, hc.trans mc⟩, ?_⟩
        rw [hd, hv.1, ed_lt_iff] at hlt
        rintro q (hq | ⟨-, hq⟩)
        · exact hlt.le.trans (hb q hq)
        · exact hn q hq
      · rw [if_neg (by exact hlt)]
        refine ⟨hv, ?_⟩
        rw [hd, hv.1, ed_lt_iff, not_lt] at hlt
        rintro q (hq | ⟨-, hq⟩)
        · exact hb q hq
        · exact hlt.trans (hn q hq)

private theorem seg_left (a b : Vec3 ℝ) : a ∈ Spec.segment a b := ⟨1, 0, zero_le_one, le_rfl, add_zero 1, by simp [Spec.comb]⟩
private theorem seg_right (a b : Vec3 ℝ) : b ∈ Spec.segment a b := ⟨0, 1, le_rfl, zero_le_one, zero_add 1, by simp [Spec.comb]⟩
private theorem seg_same {a q : Vec3 ℝ} (h : q ∈ Spec.segment a a) : q = a := by
  obtain ⟨x, y, -, -, hs, rfl⟩ := h
  ext <;> simp only [Spec.comb]
  · linear_combination a.x * hs
  · linear_combination a.y * hs
  · linear_combination a.z * hs

/-- The three edge tests find the nearest point of the boundary, when not all vertices coincide. -/
theorem tri_edges_best (v0 v1 v2 : Vec3 ℝ) (hne : v0 ≠ v1 ∨ v1 ≠ v2) :
    ∃ r, Tri3.testEdge v2 v0 (fun a b => (b, 0, a))
      (Tri3.testEdge v1 v2 (fun a b => (0, a, b)) (Tri3.testEdge v0 v1 (fun a b => (a, b, 0)) none)) = some r ∧
    TriValid v0 v1 v2 r ∧ ∀ q, q ∈ Spec.segment v0 v1 ∨ q ∈ Spec.segment v1 v2 ∨ q ∈ Spec.segment v2 v0 →
      Spec.sqd .zero r.cp ≤ Spec.sqd .zero q := by
  have b0 : Best v0 v1 v2 ∅ none := rfl
  have b1 := best_step (va := v0) (vb := v1) (mk := fun a b => (a, b, 0)) b0 (by
    intro a b ha hb hs
    exact ⟨ha, hb, le_rfl, by simpa using hs, by ext <;> simp only [Spec.comb] <;> ring⟩)
  have b2 := best_step (va := v1) (vb := v2) (mk := fun a b => (0, a, b)) b1 (by
    intro a b ha hb hs
    exact ⟨le_rfl, ha, hb, by simpa using hs, by ext <;> simp only [Spec.comb] <;> ring⟩)
  have b3 := best_step (va := v2) (vb := v0) (mk := fun a b => (b, 0, a)) b2 (by
    intro a b ha hb hs
    exact ⟨hb, le_rfl, ha, by simp only; linarith, by ext <;> simp only [Spec.comb] <;> ring⟩)
  generalize hS : ((∅ ∪ {q | v0 ≠ v1 ∧ q ∈ Spec.segment v0 v1}) ∪ {q | v1 ≠ v2 ∧ q ∈ Spec.segment v1 v2}) ∪
    {q | v2 ≠ v0 ∧ q ∈ Spec.segment v2 v0} = S at b3
  have cover : ∀ q, q ∈ Spec.segment v0 v1 ∨ q ∈ Spec.segment v1 v2 ∨ q ∈ Spec.segment v2 v0 → q ∈ S := by
    rw [← hS]
    have hne' : ∀ w, (w = v0 ∨ w = v1 ∨ w = v2) → w ∈ (((∅ ∪ {q | v0 ≠ v1 ∧ q ∈ Spec.segment v0 v1}) ∪ {q | v1 ≠ v2 ∧ q ∈ Spec.segment v1 v2}) ∪
        {q | v2 ≠ v0 ∧ q ∈ Spec.segment v2 v0} : Set (Vec3 ℝ)) := by
      intro w hw
      by_cases h01 : v0 = v1
      · have h12 : v1 ≠ v2 := hne.resolve_left (fun h => h h01)
        rcases hw with rfl | rfl | rfl
        · exact Or.inl (Or.inr ⟨h12, h01 ▸ seg_left _ _⟩)
        · exact Or.inl (Or.inr ⟨h12, seg_left _ _⟩)
        · exact Or.inl (Or.inr ⟨h12, seg_right _ _⟩)
      · by_cases h12 : v1 = v2
        · rcases hw with rfl | rfl | rfl
          · exact Or.inl (Or.inl (Or.inr ⟨h01, seg_left _ _⟩))
          · exact Or.inl (Or.inl (Or.inr ⟨h01, seg_right _ _⟩))
          · exact Or.inl (Or.inl (Or.inr ⟨h01, h12 ▸ seg_right _ _⟩))
        · rcases hw with rfl | rfl | rfl
          · exact Or.inl (Or.inl (Or.inr ⟨h01, seg_left _ _⟩))
          · exact Or.inl (Or.inl (Or.inr ⟨h01, seg_right _ _⟩))
          · exact Or.inl (Or.inr ⟨h12, seg_right _ _⟩)
    rintro q (hq | hq | hq)
    · by_cases h : v0 = v1
      · rw [← h] at hq; exact hne' q (Or.inl (seg_same hq))
      · exact Or.inl (Or.inl (Or.inr ⟨h, hq⟩))
    · by_cases h : v1 = v2
      · rw [← h] at hq; exact hne' q (Or.inr (Or.inl (seg_same hq)))
      · exact Or.inl (Or.inr ⟨h, hq⟩)
    · by_cases h : v2 = v0
      · rw [h] at hq; exact hne' q (Or.inl (seg_same hq))
      · exact Or.inr ⟨h, hq⟩
  generalize Tri3.testEdge v2 v0 (fun a b => (b, 0, a))
      (Tri3.testEdge v1 v2 (fun a b => (0, a, b)) (Tri3.testEdge v0 v1 (fun a b => (a, b, 0)) none)) = res at b3
  cases res with
  | none =>
    exfalso
    have : S = ∅ := b3
    have h := cover v0 (Or.inl (seg_left _ _))
    rw [this] at h; exact h
  | some r => exact ⟨r, rfl, b3.1, fun q hq => b3.2 q (cover q hq)⟩

/-- A triangle point with a vanishing coordinate is on an edge. -/
private theorem on_edge {v0 v1 v2 : Vec3 ℝ} (l : Fin 3 → ℝ) (hl : ∀ i, 0 ≤ l i) (hs : l 0 + l 1 + l 2 = 1) (i : Fin 3) (hi : l i = 0) :
    Spec.comb (l 0) (l 1) (l 2) 0 v0 v1 v2 v0 ∈ Spec.segment v0 v1 ∨
    Spec.comb (l 0) (l 1) (l 2) 0 v0 v1 v2 v0 ∈ Spec.segment v1 v2 ∨
    Spec.comb (l 0) (l 1) (l 2) 0 v0 v1 v2 v0 ∈ Spec.segment v2 v0 := by
  fin_cases i
  · exact Or.inr (Or.inl ⟨l 1, l 2, hl 1, hl 2, by have := hi; simp at this; linarith, by
      simp only [Fin.zero_eta, Fin.isValue] at hi
      ext <;> simp only [Spec.comb, hi] <;> ring⟩)
  · exact Or.inr (Or.inr ⟨l 2, l 0, hl 2, hl 0, by have := hi; simp at this; linarith, by
      simp only [Fin.mk_one, Fin.isValue] at hi
      ext <;> simp only [Spec.comb, hi] <;> ring⟩)
  · exact Or.inl ⟨l 0, l 1, hl 0, hl 1, by have := hi; simp at this; linarith, by
      simp only [Fin.reduceFinMk, Fin.isValue] at hi
      ext <;> simp only [Spec.comb, hi] <;> ring⟩

/-- Affine dependence of collinear points. -/
private theorem collinear_dep {v0 v1 v2 : Vec3 ℝ} (hne : v0 ≠ v1 ∨ v1 ≠ v2) (hz : Tri3.outerProd v0 v1 v2 = .zero) :
    ∃ m0 m1 m2 : ℝ, m0 + m1 + m2 = 0 ∧ (m0 < 0 ∨ m1 < 0 ∨ m2 < 0) ∧
      Spec.comb m0 m1 m2 0 v0 v1 v2 v0 = .zero := by
  have hx := congrArg Vec3.x hz
  have hy := congrArg Vec3.y hz
  have hzz := congrArg Vec3.z hz
  simp only [Tri3.outerProd, zeo] at hx hy hzz
  by_cases h01 : v0 = v1
  · exact ⟨1, -1, 0, by ring, Or.inr (Or.inl (by norm_num)), by subst h01; ext <;> simp only [Spec.comb, zeo] <;> ring⟩
  · have hp : 0 < (v1.sub v0).sqrNorm := by
      rcases lt_or_eq_of_le (v1.sub v0).sqrNorm_nonneg with h | h
      · exact h
      · exfalso; apply h01
        simp only [zeo] at h
        ext
        · nlinarith [sq_nonneg (v1.x - v0.x), sq_nonneg (v1.y - v0.y), sq_nonneg (v1.z - v0.z)]
        · nlinarith [sq_nonneg (v1.x - v0.x), sq_nonneg (v1.y - v0.y), sq_nonneg (v1.z - v0.z)]
        · nlinarith [sq_nonneg (v1.x - v0.x), sq_nonneg (v1.y - v0.y), sq_nonneg (v1.z - v0.z)]
    -- v2 - v1 = k (v1 - v0), with k = (v2-v1).(v1-v0)/|v1-v0|^2
    refine ⟨-(v2.sub v1).inner (v1.sub v0), (v1.sub v0).sqrNorm + (v2.sub v1).inner (v1.sub v0), -(v1.sub v0).sqrNorm, by ring,
      Or.inr (Or.inr (by linarith)), ?_⟩
    ext <;> simp only [Spec.comb, zeo]
    · linear_combination (v1.y - v0.y) * hzz - (v1.z - v0.z) * hy
    · linear_combination (v1.z - v0.z) * hx - (v1.x - v0.x) * hzz
    · linear_combination (v1.x - v0.x) * hy - (v1.y - v0.y) * hx

/-- **From the origin.** For a triangle whose computed normal is above the tolerance — or exactly
zero (collinear vertices) with not all vertices equal — the result is the nearest point of the
filled triangle, with valid barycentric weights, and the returned value is its distance. -/
theorem C20_fromOrigin (τ : ℝ) (hτ : 0 ≤ τ) (hτ' : τ ≤ 1/4) (v0 v1 v2 : Vec3 ℝ)
    (h : ¬ (Tri3.outerProd v0 v1 v2).isTol τ ∨ (Tri3.outerProd v0 v1 v2 = .zero ∧ (v0 ≠ v1 ∨ v1 ≠ v2))) :
    ∃ r, Tri3.closestFromOrigin τ v0 v1 v2 = some r ∧
      Spec.IsNearest (Spec.triangle v0 v1 v2) .zero r.cp ∧ r.dist = Spec.ed .zero r.cp ∧
      0 ≤ r.s0 ∧ 0 ≤ r.s1 ∧ 0 ≤ r.s2 ∧ r.s0 + r.s1 + r.s2 = 1 ∧
      r.cp = Spec.comb r.s0 r.s1 r.s2 0 v0 v1 v2 v0 := by
  -- reduction of the boundary case
  have bdry : (v0 ≠ v1 ∨ v1 ≠ v2) →
      (∀ l : Fin 3 → ℝ, (∀ i, 0 ≤ l i) → l 0 + l 1 + l 2 = 1 → ∃ l' : Fin 3 → ℝ, (∀ i, 0 ≤ l' i) ∧ l' 0 + l' 1 + l' 2 = 1 ∧
        (∃ i, l' i = 0) ∧ Spec.sqd .zero (Spec.comb (l' 0) (l' 1) (l' 2) 0 v0 v1 v2 v0) ≤
          Spec.sqd .zero (Spec.comb (l 0) (l 1) (l 2) 0 v0 v1 v2 v0)) →
      ∃ r, Tri3.testEdge v2 v0 (fun a b => (b, 0, a))
      (Tri3.testEdge v1 v2 (fun a b => (0, a, b)) (Tri3.testEdge v0 v1 (fun a b => (a, b, 0)) none)) = some r ∧
      Spec.IsNearest (Spec.triangle v0 v1 v2) .zero r.cp ∧ r.dist = Spec.ed .zero r.cp ∧
      0 ≤ r.s0 ∧ 0 ≤ r.s1 ∧ 0 ≤ r.s2 ∧ r.s0 + r.s1 + r.s2 = 1 ∧
      r.cp = Spec.comb r.s0 r.s1 r.s2 0 v0 v1 v2 v0 := by
    intro hne hred
    obtain ⟨r, hr, ⟨hd, h0, h1, h2, hs, hc⟩, hb⟩ := tri_edges_best v0 v1 v2 hne
    refine ⟨r, hr, ⟨⟨r.s0, r.s1, r.s2, h0, h1, h2, hs, hc⟩, ?_⟩, hd, h0, h1, h2, hs, hc⟩
    rintro q ⟨a, b, c, ha, hb', hc', hs', rfl⟩
    obtain ⟨l', p1, p2, ⟨i, p3⟩, p4⟩ := hred ![a, b, c] (by intro i; fin_cases i <;> assumption) (by simpa using hs')
    exact (hb _ (on_edge l' p1 p2 i p3)).trans p4
  rcases h with h | ⟨hz, hne⟩
  · obtain ⟨hu, hn, hN⟩ := normalize_unit hτ (old := Tri3.outerProd v0 v1 v2) h
    have hcr : Tri3.create τ v0 v1 v2 = (true, ⟨v0, v1, v2, ((Tri3.outerProd v0 v1 v2).normalize τ (Tri3.outerProd v0 v1 v2)).2⟩) := by
      simp only [Tri3.create, if_neg h]
    unfold Tri3.closestFromOrigin
    rw [hcr]
    dsimp only
    generalize ((Tri3.outerProd v0 v1 v2).normalize τ (Tri3.outerProd v0 v1 v2)).2 = u at *
    generalize (Tri3.outerProd v0 v1 v2).norm = N at *
    obtain ⟨p1, p2⟩ := tri_plane hn hN
    have hsum := tri_bary_sum hn hu
    have hbary := tri_bary_div hn hN
    rw [tri_proj hn hN]
    have hin : Tri3.projIsInside τ ⟨v0, v1, v2, u⟩ .zero ↔
        0 ≤ u.inner (v0.outer v1) ∧ 0 ≤ u.inner (v1.outer v2) ∧ 0 ≤ u.inner (v2.outer v0) := by
      simp only [Tri3.projIsInside, tri_proj hn hN, tri_outside hτ, not_lt]
    rw [hin]
    by_cases hins : 0 ≤ u.inner (v0.outer v1) ∧ 0 ≤ u.inner (v1.outer v2) ∧ 0 ≤ u.inner (v2.outer v0)
    · rw [if_pos ⟨rfl, hins⟩]
      obtain ⟨t1, ht, ht1, ht2⟩ := orthoSpace_unit hτ hτ' hu
      have hw : ∀ a b : Vec3 ℝ,
          (⟨t1.inner (a.sub (u.mul (v0.inner u))), (u.outer t1).inner (a.sub (u.mul (v0.inner u)))⟩ : Vec2 ℝ).outer
          ⟨t1.inner (b.sub (u.mul (v0.inner u))), (u.outer t1).inner (b.sub (u.mul (v0.inner u)))⟩ = u.inner (a.outer b) := by
        intro a b
        have e1 : t1.outer (u.outer t1) = u := by
          have : t1.outer (u.outer t1) = (u.mul t1.sqrNorm).sub (t1.mul (t1.inner u)) := by
            ext <;> simp only [zeo] <;> ring
          rw [this, ht1, ht2]; ext <;> simp only [zeo] <;> ring
        have e2 : ∀ x y s t : Vec3 ℝ, (⟨s.inner x, t.inner x⟩ : Vec2 ℝ).outer ⟨s.inner y, t.inner y⟩ = (s.outer t).inner (x.outer y) := by
          intro x y s t; simp only [zeo]; ring
        rw [e2, e1]
        generalize v0.inner u = k
        simp only [zeo]; ring
      refine ⟨_, rfl, ?_⟩
      have hs0 : (Tri3.insideRes τ ⟨v0, v1, v2, u⟩ (u.mul (v0.inner u))) =
          ⟨(u.mul (v0.inner u)).norm, u.inner (v1.outer v2) * (1 / N), u.inner (v2.outer v0) * (1 / N), u.inner (v0.outer v1) * (1 / N), u.mul (v0.inner u)⟩ := by
        simp only [Tri3.insideRes, ht, Option.getD_some, hw, hsum]
      rw [hs0]
      simp only [one_div, ← div_eq_mul_inv]
      refine ⟨⟨⟨_, _, _, div_nonneg hins.2.1 hN.le, div_nonneg hins.2.2 hN.le, div_nonneg hins.1 hN.le, ?_, hbary.symm⟩, ?_⟩, norm_eq_ed_zero _,
        div_nonneg hins.2.1 hN.le, div_nonneg hins.2.2 hN.le, div_nonneg hins.1 hN.le, ?_, hbary.symm⟩
      · rw [← add_div, ← add_div, hsum, div_self hN.ne']
      · rintro q ⟨a, b, c, ha, hb, hc, hs, rfl⟩
        rw [sqd_zero_proj hu, sqd_zero_split hu _ (tri_inner_comb p1 p2 hs)]
        linarith [sqd_nonneg (u.mul (v0.inner u)) (Spec.comb a b c 0 v0 v1 v2 v0)]
      · rw [← add_div, ← add_div, hsum, div_self hN.ne']
    · rw [if_neg (fun hh => hins hh.2)]
      refine bdry ?_ ?_
      · by_contra hc
        push Not at hc
        obtain ⟨rfl, rfl⟩ := hc
        apply h
        have : Tri3.outerProd v0 v0 v0 = .zero := by ext <;> simp only [Tri3.outerProd, zeo] <;> ring
        rw [this]; simp [Vec3.isTol, zIsTol, Vec3.zero, hτ]
      · intro l hl hs
        have hneg : ∃ i, (![u.inner (v1.outer v2) / N, u.inner (v2.outer v0) / N, u.inner (v0.outer v1) / N] : Fin 3 → ℝ) i < 0 := by
          by_contra hc
          push Not at hc
          have c0 := hc 0
          have c1 := hc 1
          have c2 := hc 2
          simp only [Matrix.cons_val_zero, Matrix.cons_val_one, Matrix.cons_val] at c0 c1 c2
          have mul : ∀ x, 0 ≤ x / N → 0 ≤ x := fun x hx => by
            have := mul_nonneg hx hN.le
            rwa [div_mul_cancel₀ _ hN.ne'] at this
          exact hins ⟨mul _ c2, mul _ c0, mul _ c1⟩
        obtain ⟨t, i, ht0, ht1, hmi, hi, hj⟩ := exit_seg l _ hl hneg
        generalize hm : (![u.inner (v1.outer v2) / N, u.inner (v2.outer v0) / N, u.inner (v0.outer v1) / N] : Fin 3 → ℝ) = m at *
        have hm0 : m 0 = u.inner (v1.outer v2) / N := by rw [← hm]; rfl
        have hm1 : m 1 = u.inner (v2.outer v0) / N := by rw [← hm]; rfl
        have hm2 : m 2 = u.inner (v0.outer v1) / N := by rw [← hm]; rfl
        have hms : m 0 + m 1 + m 2 = 1 := by rw [hm0, hm1, hm2, ← add_div, ← add_div, hsum, div_self hN.ne']
        rw [← hm0, ← hm1, ← hm2] at hbary
        have hs' : (l 0 + t * (m 0 - l 0)) + (l 1 + t * (m 1 - l 1)) + (l 2 + t * (m 2 - l 2)) = 1 := by
          linear_combination (1 - t) * hs + t * hms
        refine ⟨fun j => l j + t * (m j - l j), hj, hs', ⟨i, hi⟩, ?_⟩
        rw [sqd_zero_split hu _ (tri_inner_comb p1 p2 hs'), sqd_zero_split hu _ (tri_inner_comb p1 p2 hs)]
        rw [← hbary]
        have : Spec.sqd (Spec.comb (m 0) (m 1) (m 2) 0 v0 v1 v2 v0) (Spec.comb (l 0 + t * (m 0 - l 0)) (l 1 + t * (m 1 - l 1)) (l 2 + t * (m 2 - l 2)) 0 v0 v1 v2 v0)
            = (1 - t)^2 * Spec.sqd (Spec.comb (m 0) (m 1) (m 2) 0 v0 v1 v2 v0) (Spec.comb (l 0) (l 1) (l 2) 0 v0 v1 v2 v0) := by
          simp only [Spec.sqd, Spec.comb]; ring
        rw [this]
        have h01 : (1 - t)^2 ≤ 1 := by nlinarith
        nlinarith [sqd_nonneg (Spec.comb (m 0) (m 1) (m 2) 0 v0 v1 v2 v0) (Spec.comb (l 0) (l 1) (l 2) 0 v0 v1 v2 v0)]
  · have hcr : (Tri3.create τ v0 v1 v2).1 = false := by
      simp only [Tri3.create]
      rw [if_pos]
      rw [hz]; simp [Vec3.isTol, zIsTol, Vec3.zero, hτ]
    simp only [Tri3.closestFromOrigin]
    rw [if_neg (by rw [hcr]; simp)]
    refine bdry hne ?_
    intro l hl hs
    obtain ⟨m0, m1, m2, hms, hneg, hmz⟩ := collinear_dep hne hz
    obtain ⟨t, i, ht0, hmi, hi, hj⟩ := exit_dir l ![m0, m1, m2] hl (by
      rcases hneg with h | h | h
      · exact ⟨0, h⟩
      · exact ⟨1, h⟩
      · exact ⟨2, h⟩)
    generalize hm : (![m0, m1, m2] : Fin 3 → ℝ) = m at *
    obtain rfl : m 0 = m0 := by rw [← hm]; rfl
    obtain rfl : m 1 = m1 := by rw [← hm]; rfl
    obtain rfl : m 2 = m2 := by rw [← hm]; rfl
    refine ⟨fun j => l j + t * m j, hj, by linear_combination hs + t * hms, ⟨i, hi⟩, ?_⟩
    have : Spec.comb (l 0 + t * m 0) (l 1 + t * m 1) (l 2 + t * m 2) 0 v0 v1 v2 v0 = Spec.comb (l 0) (l 1) (l 2) 0 v0 v1 v2 v0 := by
      have e1 := congrArg Vec3.x hmz
      have e2 := congrArg Vec3.y hmz
      have e3 := congrArg Vec3.z hmz
      simp only [Spec.comb, Vec3.zero] at e1 e2 e3
      ext <;> simp only [Spec.comb]
      · linear_combination t * e1
      · linear_combination t * e2
      · linear_combination t * e3
    rw [this]

/-- **Main claim**: `zTri3DClosest` returns the nearest point of the filled triangle and its distance,
for every query point. -/
theorem C20_closest_partial (τ : ℝ) (hτ : 0 ≤ τ) (hτ' : τ ≤ 1/4) (v0 v1 v2 p : Vec3 ℝ)
    (h : ¬ (Tri3.outerProd v0 v1 v2).isTol τ ∨ (Tri3.outerProd v0 v1 v2 = .zero ∧ (v0 ≠ v1 ∨ v1 ≠ v2))) :
    ∃ r, Tri3.closest τ v0 v1 v2 p = some r ∧
      Spec.IsNearest (Spec.triangle v0 v1 v2) p r.2 ∧ r.1 = Spec.ed p r.2 := by
  have ho : Tri3.outerProd (v0.sub p) (v1.sub p) (v2.sub p) = Tri3.outerProd v0 v1 v2 := by
    ext <;> simp only [Tri3.outerProd, zeo] <;> ring
  have hsub : ∀ a b : Vec3 ℝ, a.sub p = b.sub p → a = b := by
    intro a b e
    have e1 := congrArg Vec3.x e
    have e2 := congrArg Vec3.y e
    have e3 := congrArg Vec3.z e
    simp only [zeo] at e1 e2 e3
    ext <;> linarith
  obtain ⟨r, hr, hn, hd, -⟩ := C20_fromOrigin τ hτ hτ' (v0.sub p) (v1.sub p) (v2.sub p) (by
    rw [ho]
    rcases h with h | ⟨h1, h2⟩
    · exact Or.inl h
    · exact Or.inr ⟨h1, h2.imp (fun hh e => hh (hsub _ _ e)) (fun hh e => hh (hsub _ _ e))⟩)
  refine ⟨_, by rw [Tri3.closest, hr]; rfl, isNearest_translate p r.cp (mem_triangle_sub v0 v1 v2 p) hn, ?_⟩
  show r.dist = Spec.ed p (r.cp.add p)
  rw [hd, ← norm_eq_ed_zero, norm_eq_ed p]

/-- `zTri3DPointIsInside` decides whether the distance to the triangle is below the margin. -/
theorem C20_pointIsInside (τ : ℝ) (hτ : 0 ≤ τ) (hτ' : τ ≤ 1/4) (v0 v1 v2 p : Vec3 ℝ) (m : ℝ)
    (h : ¬ (Tri3.outerProd v0 v1 v2).isTol τ ∨ (Tri3.outerProd v0 v1 v2 = .zero ∧ (v0 ≠ v1 ∨ v1 ≠ v2))) :
    Tri3.pointIsInside τ v0 v1 v2 p m ↔ ∃ q ∈ Spec.triangle v0 v1 v2, Spec.ed p q < m := by
  obtain ⟨r, hr, ⟨hm, hn⟩, hd⟩ := C20_closest_partial τ hτ hτ' v0 v1 v2 p h
  simp only [Tri3.pointIsInside, hr, Option.some.injEq, exists_eq_left']
  constructor
  · intro hlt; exact ⟨r.2, hm, hd ▸ hlt⟩
  · rintro ⟨q, hq, hlt⟩
    rw [hd]
    exact lt_of_le_of_lt (Real.sqrt_le_sqrt (hn q hq)) hlt

/-- `zTri3DSignedClosest`: same point, distance up to sign, negative exactly behind the plane. -/
theorem C20_signedClosest (τ : ℝ) (hτ : 0 ≤ τ) (hτ' : τ ≤ 1/4) (v0 v1 v2 p : Vec3 ℝ)
    (h : ¬ (Tri3.outerProd v0 v1 v2).isTol τ) :
    ∃ r, Tri3.signedClosest τ (Tri3.create τ v0 v1 v2).2 p = some r ∧
      Spec.IsNearest (Spec.triangle v0 v1 v2) p r.2 ∧ |r.1| = Spec.ed p r.2 ∧
      (r.1 < 0 ↔ (p.sub v0).inner ((v1.sub v0).outer (v2.sub v0)) < 0) := by
  obtain ⟨r, hr, hn, hd⟩ := C20_closest_partial τ hτ hτ' v0 v1 v2 p (Or.inl h)
  obtain ⟨hu, hnn, hN⟩ := normalize_unit hτ (old := Tri3.outerProd v0 v1 v2) h
  have hcr : (Tri3.create τ v0 v1 v2).2 = ⟨v0, v1, v2, ((Tri3.outerProd v0 v1 v2).normalize τ (Tri3.outerProd v0 v1 v2)).2⟩ := by
    simp only [Tri3.create, if_neg h]
  have ho : (v1.sub v0).outer (v2.sub v0) = Tri3.outerProd v0 v1 v2 := by
    ext <;> simp only [Tri3.outerProd, zeo] <;> ring
  rw [hcr, ho]
  simp only [Tri3.signedClosest, hr]
  refine ⟨_, rfl, hn, ?_⟩
  beta_reduce
  dsimp only
  have hd0 : 0 ≤ r.1 := hd ▸ Real.sqrt_nonneg _
  have key : (p.sub v0).inner (Tri3.outerProd v0 v1 v2) = (Tri3.outerProd v0 v1 v2).norm *
      (⟨v0, v1, v2, ((Tri3.outerProd v0 v1 v2).normalize τ (Tri3.outerProd v0 v1 v2)).2⟩ : Tri3 ℝ).distFromPointToPlane p := by
    conv_lhs => rw [hnn]
    generalize ((Tri3.outerProd v0 v1 v2).normalize τ (Tri3.outerProd v0 v1 v2)).2 = u at *
    generalize (Tri3.outerProd v0 v1 v2).norm = N at *
    obtain ⟨p1, p2⟩ := tri_plane hnn hN
    have e : (⟨v0, v1, v2, u⟩ : Tri3 ℝ).distFromPointToPlane p = p.inner u - (v0.inner u + v1.inner u + v2.inner u) / 3 := by
      simp only [Tri3.distFromPointToPlane, zeo]; ring
    rw [e, p1, p2]
    simp only [zeo]; ring
  rw [key]
  have hz : r.1 = 0 → 0 ≤ (⟨v0, v1, v2, ((Tri3.outerProd v0 v1 v2).normalize τ (Tri3.outerProd v0 v1 v2)).2⟩ : Tri3 ℝ).distFromPointToPlane p := by
    intro h0
    have hp : p = r.2 := by
      rw [hd] at h0
      have := (Real.sqrt_eq_zero (sqd_nonneg p r.2)).1 h0
      unfold Spec.sqd at this
      ext
      · nlinarith [sq_nonneg (p.x - r.2.x), sq_nonneg (p.y - r.2.y), sq_nonneg (p.z - r.2.z)]
      · nlinarith [sq_nonneg (p.x - r.2.x), sq_nonneg (p.y - r.2.y), sq_nonneg (p.z - r.2.z)]
      · nlinarith [sq_nonneg (p.x - r.2.x), sq_nonneg (p.y - r.2.y), sq_nonneg (p.z - r.2.z)]
    obtain ⟨a, b, c, -, -, -, hs, hq⟩ := hn.1
    have h1 : (p.sub v0).inner (Tri3.outerProd v0 v1 v2) = 0 := by
      rw [hp, hq]
      have : a = 1 - b - c := by linarith
      subst this
      simp only [Spec.comb, Tri3.outerProd, zeo]; ring
    rw [key] at h1
    exact ((mul_eq_zero.1 h1).resolve_left hN.ne').ge
  by_cases hs : 0 ≤ (⟨v0, v1, v2, ((Tri3.outerProd v0 v1 v2).normalize τ (Tri3.outerProd v0 v1 v2)).2⟩ : Tri3 ℝ).distFromPointToPlane p
  · rw [if_pos hs]
    refine ⟨by rw [abs_of_nonneg hd0, hd], ?_⟩
    constructor
    · intro hlt; linarith
    · intro hlt; nlinarith
  · rw [if_neg hs]
    refine ⟨by rw [abs_neg, abs_of_nonneg hd0, hd], ?_⟩
    constructor
    · intro _; exact mul_neg_of_pos_of_neg hN (not_le.1 hs)
    · intro _
      rcases lt_or_eq_of_le hd0 with hlt | heq
      · linarith
      · exact absurd (hz heq.symm) hs

/-- `zTri3DContigVert` returns the nearest vertex and its distance. -/
theorem C20_contigVert (v0 v1 v2 p : Vec3 ℝ) :
    Spec.IsNearest {v0, v1, v2} p (Tri3.contigVert v0 v1 v2 p).1 ∧
    (Tri3.contigVert v0 v1 v2 p).2 = Spec.ed p (Tri3.contigVert v0 v1 v2 p).1 := by
  have e : ∀ q, p.sqrDist q = Spec.sqd p q := by intro q; simp only [Spec.sqd, zeo]; ring
  unfold Tri3.contigVert
  simp only [e]
  split_ifs with h1 h2 h2
  all_goals
    refine ⟨⟨by simp, ?_⟩, rfl⟩
    rintro q (rfl | rfl | rfl) <;> linarith

/-- **The tolerance breaks the claim**: for every positive tolerance there is a non-degenerate triangle
containing the query point for which the code answers a positive distance (the normal is below the
tolerance, so only the edges are examined). -/
theorem C20_small_triangle_wrong (τ : ℝ) (hτ : 0 < τ) : ∃ v0 v1 v2 : Vec3 ℝ,
    Tri3.outerProd v0 v1 v2 ≠ .zero ∧ Vec3.zero ∈ Spec.triangle v0 v1 v2 ∧
    ∃ r, Tri3.closest τ v0 v1 v2 .zero = some r ∧ 0 < r.1 := by
  have ha : 0 < Real.sqrt τ / 2 := by have := Real.sqrt_pos.2 hτ; linarith
  have ha2 : (Real.sqrt τ / 2)^2 * 4 = τ := by rw [div_pow, Real.sq_sqrt hτ.le]; ring
  generalize Real.sqrt τ / 2 = a at *
  have ho : Tri3.outerProd (⟨-a, -a, 0⟩ : Vec3 ℝ) ⟨a, -a, 0⟩ ⟨0, a, 0⟩ = ⟨0, 0, a^2 * 4⟩ := by
    ext <;> simp only [Tri3.outerProd, zeo] <;> ring
  refine ⟨⟨-a, -a, 0⟩, ⟨a, -a, 0⟩, ⟨0, a, 0⟩, ?_, ?_, ?_⟩
  · rw [ho]; intro h; have := congrArg Vec3.z h; simp only [Vec3.zero] at this; rw [ha2] at this; linarith
  · exact ⟨1/4, 1/4, 1/2, by norm_num, by norm_num, by norm_num, by norm_num, by ext <;> simp only [Spec.comb, Vec3.zero] <;> ring⟩
  · have hs : ∀ v : Vec3 ℝ, v.sub .zero = v := by intro v; ext <;> simp only [zeo] <;> ring
    have hcr : (Tri3.create τ (⟨-a, -a, 0⟩ : Vec3 ℝ) ⟨a, -a, 0⟩ ⟨0, a, 0⟩).1 = false := by
      simp only [Tri3.create]
      rw [if_pos]
      rw [ho, ha2]; simp [Vec3.isTol, zIsTol, hτ.le, abs_of_pos hτ]
    have hne : (⟨-a, -a, 0⟩ : Vec3 ℝ) ≠ ⟨a, -a, 0⟩ := by
      intro h; have := congrArg Vec3.x h; simp only at this; linarith
    obtain ⟨r, hr, ⟨hd, h0, h1, h2, hsum, hc⟩, hb⟩ := tri_edges_best (⟨-a, -a, 0⟩ : Vec3 ℝ) ⟨a, -a, 0⟩ ⟨0, a, 0⟩ (Or.inl hne)
    refine ⟨(r.dist, r.cp.add .zero), ?_, ?_⟩
    · unfold Tri3.closest
      rw [hs, hs, hs]
      unfold Tri3.closestFromOrigin
      rw [if_neg (by rw [hcr]; simp), hr]; rfl
    · -- the result is on an edge: some weight vanishes, and the origin has only positive weights
      show 0 < r.dist
      rw [hd]
      apply Real.sqrt_pos.2
      -- if it were the origin, the weights would be (1/4,1/4,1/2); but one weight is zero
      have hz : r.s0 = 0 ∨ r.s1 = 0 ∨ r.s2 = 0 := by
        have step : ∀ (va vb : Vec3 ℝ) (mk : ℝ → ℝ → ℝ × ℝ × ℝ) (best : Option TriRes3),
            (∀ x y, (mk x y).1 = 0 ∨ (mk x y).2.1 = 0 ∨ (mk x y).2.2 = 0) →
            (∀ b, best = some b → b.s0 = 0 ∨ b.s1 = 0 ∨ b.s2 = 0) →
            ∀ b, Tri3.testEdge va vb mk best = some b → b.s0 = 0 ∨ b.s1 = 0 ∨ b.s2 = 0 := by
          intro va vb mk best hmk hbest b hb'
          unfold Tri3.testEdge at hb'
          split at hb'
          · exact hbest b hb'
          · split_ifs at hb' with hlt
            · simp only [Option.some.injEq] at hb'
              subst hb'
              exact hmk _ _
            · exact hbest b hb'
        refine step _ _ _ _ (by intro x y; simp) ?_ r hr
        refine step _ _ _ _ (by intro x y; simp) ?_
        refine step _ _ _ _ (by intro x y; simp) ?_
        intro b hb'; cases hb'
      by_contra hcon
      have h00 : Spec.sqd .zero r.cp = 0 := le_antisymm (not_lt.1 hcon) (sqd_nonneg _ _)
      rw [hc] at h00
      simp only [Spec.sqd, Spec.comb, Vec3.zero] at h00
      have hx : -r.s0 + r.s1 = 0 := by
        have : (-r.s0 + r.s1) * a = 0 := by nlinarith [sq_nonneg ((-r.s0 + r.s1) * a), sq_nonneg ((-r.s0 - r.s1 + r.s2) * a)]
        exact (mul_eq_zero.1 this).resolve_right ha.ne'
      have hy : -r.s0 - r.s1 + r.s2 = 0 := by
        have : (-r.s0 - r.s1 + r.s2) * a = 0 := by nlinarith [sq_nonneg ((-r.s0 + r.s1) * a), sq_nonneg ((-r.s0 - r.s1 + r.s2) * a)]
        exact (mul_eq_zero.1 this).resolve_right ha.ne'
      rcases hz with h | h | h <;> linarith

/-- Satisfiability: a triangle above the library's tolerance (1e-12 and up to 1/4). -/
example : ¬ (Tri3.outerProd (⟨0, 0, 0⟩ : Vec3 ℝ) ⟨1, 0, 0⟩ ⟨0, 1, 0⟩).isTol (1/4) := by
  simp only [Tri3.outerProd, zeo, Vec3.isTol, zIsTol]; norm_num
/-- Satisfiability: a collinear triangle. -/
example : Tri3.outerProd (⟨0, 0, 0⟩ : Vec3 ℝ) ⟨1, 0, 0⟩ ⟨2, 0, 0⟩ = .zero ∧
    ((⟨0, 0, 0⟩ : Vec3 ℝ) ≠ ⟨1, 0, 0⟩ ∨ (⟨1, 0, 0⟩ : Vec3 ℝ) ≠ ⟨2, 0, 0⟩) := by
  refine ⟨by ext <;> simp only [Tri3.outerProd, zeo] <;> norm_num, Or.inl ?_⟩
  intro h; have := congrArg Vec3.x h; norm_num at this

end Zeo

import Mathlib.Analysis.SpecialFunctions.PolarCoord
import Mathlib.Analysis.SpecialFunctions.Integrals.Basic
import Mathlib.MeasureTheory.Integral.Prod
import Mathlib.MeasureTheory.Constructions.Pi

/-! # Moments of solids of revolution -/

namespace Zeo.Moment
open MeasureTheory Set Real

/-- Integral over a disk in polar coordinates, for a product of a power of the radius and a function
of the angle. -/
theorem disk_polar {g : ℝ} (hg : 0 ≤ g) (f : ℝ × ℝ → ℝ) (k : ℕ) (c : ℝ → ℝ)
    (h : ∀ r θ, f (r * cos θ, r * sin θ) = r ^ k * c θ) :
    ∫ p in {p : ℝ × ℝ | p.1 ^ 2 + p.2 ^ 2 ≤ g}, f p = (√g ^ (k + 2) / (k + 2)) * ∫ θ in (-π)..π, c θ := by
  have hm : MeasurableSet {p : ℝ × ℝ | p.1 ^ 2 + p.2 ^ 2 ≤ g} := measurableSet_le (by fun_prop) (by fun_prop)
  rw [← integral_indicator hm, ← integral_comp_polarCoord_symm]
  have e : ∀ p : ℝ × ℝ, p ∈ polarCoord.target →
      p.1 • ({p : ℝ × ℝ | p.1 ^ 2 + p.2 ^ 2 ≤ g}.indicator f (polarCoord.symm p)) =
        ((Ioc 0 √g).indicator (fun r => r ^ (k + 1)) p.1) * c p.2 := by
    rintro ⟨r, θ⟩ ⟨hr, hθ⟩
    replace hr : 0 < r := hr
    have hs : polarCoord.symm (r, θ) = (r * cos θ, r * sin θ) := rfl
    rw [hs]
    have hq : (r * cos θ) ^ 2 + (r * sin θ) ^ 2 = r ^ 2 := by
      have := cos_sq_add_sin_sq θ
      linear_combination r ^ 2 * this
    by_cases hc : r ^ 2 ≤ g
    · have hr' : r ≤ √g := Real.le_sqrt_of_sq_le hc
      rw [indicator_of_mem (show (r * cos θ, r * sin θ) ∈ {p : ℝ × ℝ | p.1 ^ 2 + p.2 ^ 2 ≤ g} by simpa [hq] using hc),
        indicator_of_mem (show r ∈ Ioc 0 √g from ⟨hr, hr'⟩), h, smul_eq_mul]
      ring
    · have hr' : ¬ r ≤ √g := fun hh => hc (by rw [← Real.sq_sqrt hg]; gcongr)
      rw [indicator_of_notMem (show (r * cos θ, r * sin θ) ∉ {p : ℝ × ℝ | p.1 ^ 2 + p.2 ^ 2 ≤ g} by simpa [hq] using hc),
        indicator_of_notMem (show r ∉ Ioc 0 √g from fun hh => hr' hh.2), smul_zero, zero_mul]
  rw [setIntegral_congr_fun polarCoord.open_target.measurableSet e]
  have ht : polarCoord.target = Ioi (0 : ℝ) ×ˢ Ioo (-π) π := rfl
  rw [ht, Measure.volume_eq_prod, setIntegral_prod_mul (f := (Ioc 0 √g).indicator fun r => r ^ (k + 1)) (g := c)]
  congr 1
  · rw [setIntegral_indicator measurableSet_Ioc]
    have : Ioi (0 : ℝ) ∩ Ioc 0 √g = Ioc 0 √g := inter_eq_right.2 Ioc_subset_Ioi_self
    rw [this, ← intervalIntegral.integral_of_le (Real.sqrt_nonneg g), integral_pow]
    simp; ring
  · rw [intervalIntegral.integral_of_le (by linarith [pi_pos]), integral_Ioc_eq_integral_Ioo]

theorem disk_one {g : ℝ} (hg : 0 ≤ g) : ∫ _ in {p : ℝ × ℝ | p.1 ^ 2 + p.2 ^ 2 ≤ g}, (1 : ℝ) = π * g := by
  rw [disk_polar hg (fun _ => 1) 0 (fun _ => 1) (fun r θ => by simp)]
  simp [Real.sq_sqrt hg]; ring
theorem disk_x {g : ℝ} (hg : 0 ≤ g) : ∫ p in {p : ℝ × ℝ | p.1 ^ 2 + p.2 ^ 2 ≤ g}, p.1 = 0 := by
  rw [disk_polar hg (fun p => p.1) 1 (fun θ => cos θ) (fun r θ => by simp)]
  simp
theorem disk_y {g : ℝ} (hg : 0 ≤ g) : ∫ p in {p : ℝ × ℝ | p.1 ^ 2 + p.2 ^ 2 ≤ g}, p.2 = 0 := by
  rw [disk_polar hg (fun p => p.2) 1 (fun θ => sin θ) (fun r θ => by simp)]
  simp
theorem disk_xy {g : ℝ} (hg : 0 ≤ g) : ∫ p in {p : ℝ × ℝ | p.1 ^ 2 + p.2 ^ 2 ≤ g}, p.1 * p.2 = 0 := by
  rw [disk_polar hg (fun p => p.1 * p.2) 2 (fun θ => sin θ * cos θ) (fun r θ => by ring)]
  simp
theorem disk_xx {g : ℝ} (hg : 0 ≤ g) : ∫ p in {p : ℝ × ℝ | p.1 ^ 2 + p.2 ^ 2 ≤ g}, p.1 ^ 2 = π / 4 * g ^ 2 := by
  rw [disk_polar hg (fun p => p.1 ^ 2) 2 (fun θ => cos θ ^ 2) (fun r θ => by ring), integral_cos_sq]
  have : √g ^ (2 + 2) = g ^ 2 := by rw [show (2 + 2) = 2 * 2 from rfl, pow_mul, Real.sq_sqrt hg]
  rw [this]; simp; ring
theorem disk_yy {g : ℝ} (hg : 0 ≤ g) : ∫ p in {p : ℝ × ℝ | p.1 ^ 2 + p.2 ^ 2 ≤ g}, p.2 ^ 2 = π / 4 * g ^ 2 := by
  rw [disk_polar hg (fun p => p.2 ^ 2) 2 (fun θ => sin θ ^ 2) (fun r θ => by ring), integral_sin_sq]
  have : √g ^ (2 + 2) = g ^ 2 := by rw [show (2 + 2) = 2 * 2 from rfl, pow_mul, Real.sq_sqrt hg]
  rw [this]; simp; ring

/-! ## Slices -/

/-- The solid of revolution about the third axis between `a` and `b`, with squared radius `g`. -/
def Rev (g : ℝ → ℝ) (a b : ℝ) : Set (Fin 3 → ℝ) := {p | (a ≤ p 2 ∧ p 2 ≤ b) ∧ p 0 ^ 2 + p 1 ^ 2 ≤ g (p 2)}

/-- Coordinates reordered for slicing. -/
def slice : (Fin 3 → ℝ) ≃ᵐ ℝ × (ℝ × ℝ) :=
  (MeasurableEquiv.piFinSuccAbove (fun _ => ℝ) 2).trans ((MeasurableEquiv.refl ℝ).prodCongr MeasurableEquiv.finTwoArrow)

theorem slice_apply (p : Fin 3 → ℝ) : slice p = (p 2, (p 0, p 1)) := rfl

theorem slice_preserving : MeasurePreserving slice := by
  have h1 := volume_preserving_piFinSuccAbove (fun _ : Fin 3 => ℝ) 2
  have h2 : MeasurePreserving (Prod.map id MeasurableEquiv.finTwoArrow : ℝ × (Fin 2 → ℝ) → ℝ × (ℝ × ℝ)) :=
    (MeasurePreserving.id volume).prod (volume_preserving_finTwoArrow ℝ)
  exact h2.comp h1

theorem rev_compact {g : ℝ → ℝ} (hg : Continuous g) (a b : ℝ) : IsCompact (Rev g a b) := by
  obtain ⟨M, hM⟩ := (isCompact_Icc (a := a) (b := b)).exists_bound_of_continuousOn hg.continuousOn
  refine IsCompact.of_isClosed_subset (isCompact_Icc (a := (fun i => if i = 2 then a else -(|M| + 1) : Fin 3 → ℝ)) (b := fun i => if i = 2 then b else |M| + 1)) ?_ ?_
  · have h1 : IsClosed {p : Fin 3 → ℝ | a ≤ p 2} := isClosed_le (by fun_prop) (by fun_prop)
    have h2 : IsClosed {p : Fin 3 → ℝ | p 2 ≤ b} := isClosed_le (by fun_prop) (by fun_prop)
    have h3 : IsClosed {p : Fin 3 → ℝ | p 0 ^ 2 + p 1 ^ 2 ≤ g (p 2)} := isClosed_le (by fun_prop) (by fun_prop)
    exact (h1.inter h2).inter h3
  · rintro p ⟨⟨h1, h2⟩, h3⟩
    have hb := hM (p 2) ⟨h1, h2⟩
    rw [Real.norm_eq_abs] at hb
    have hb' : g (p 2) ≤ |M| := (le_abs_self _).trans (hb.trans (le_abs_self M))
    have h0 : |p 0| ≤ |M| + 1 := by
      apply abs_le_of_sq_le_sq _ (by positivity)
      nlinarith [sq_nonneg (p 1), abs_nonneg M, sq_nonneg (|M|)]
    have h1' : |p 1| ≤ |M| + 1 := by
      apply abs_le_of_sq_le_sq _ (by positivity)
      nlinarith [sq_nonneg (p 0), abs_nonneg M, sq_nonneg (|M|)]
    rw [abs_le] at h0 h1'
    constructor <;> intro i <;> fin_cases i <;> simp <;> linarith

/-- Integral over a solid of revolution, slice by slice. -/
theorem rev_integral {g : ℝ → ℝ} (hg : Continuous g) {a b : ℝ} (hab : a ≤ b) {F : ℝ → ℝ} {f : ℝ × ℝ → ℝ} (hF : Continuous F) (hf : Continuous f)
    {D : ℝ → ℝ} (hD : ∀ z ∈ Icc a b, ∫ q in {q : ℝ × ℝ | q.1 ^ 2 + q.2 ^ 2 ≤ g z}, f q = D z) :
    ∫ p in Rev g a b, F (p 2) * f (p 0, p 1) = ∫ z in a..b, F z * D z := by
  have hcpt := rev_compact hg a b
  set T : Set (ℝ × (ℝ × ℝ)) := {t | (a ≤ t.1 ∧ t.1 ≤ b) ∧ t.2.1 ^ 2 + t.2.2 ^ 2 ≤ g t.1} with hT
  have hpre : Rev g a b = slice ⁻¹' T := rfl
  have hmT : MeasurableSet T := by
    have h1 : MeasurableSet {t : ℝ × (ℝ × ℝ) | a ≤ t.1} := measurableSet_le (by fun_prop) (by fun_prop)
    have h2 : MeasurableSet {t : ℝ × (ℝ × ℝ) | t.1 ≤ b} := measurableSet_le (by fun_prop) (by fun_prop)
    have h3 : MeasurableSet {t : ℝ × (ℝ × ℝ) | t.2.1 ^ 2 + t.2.2 ^ 2 ≤ g t.1} := measurableSet_le (by fun_prop) (by fun_prop)
    exact (h1.inter h2).inter h3
  have hi : IntegrableOn (fun t : ℝ × (ℝ × ℝ) => F t.1 * f t.2) T := by
    have := (show Continuous fun p : Fin 3 → ℝ => F (p 2) * f (p 0, p 1) by fun_prop).continuousOn.integrableOn_compact (μ := volume) hcpt
    rw [hpre] at this
    exact (slice_preserving.integrableOn_comp_preimage slice.measurableEmbedding (f := fun t : ℝ × (ℝ × ℝ) => F t.1 * f t.2)).1 this
  have e1 : ∫ p in Rev g a b, F (p 2) * f (p 0, p 1) = ∫ t in T, F t.1 * f t.2 := by
    rw [hpre]
    exact slice_preserving.setIntegral_preimage_emb slice.measurableEmbedding (fun t : ℝ × (ℝ × ℝ) => F t.1 * f t.2) T
  rw [e1, ← integral_indicator hmT, Measure.volume_eq_prod, integral_prod _ ((integrable_indicator_iff hmT).2 hi),
    intervalIntegral.integral_of_le hab, ← integral_Icc_eq_integral_Ioc, ← integral_indicator measurableSet_Icc]
  congr 1
  ext z
  by_cases hz : z ∈ Icc a b
  · rw [indicator_of_mem hz]
    have hmd : MeasurableSet {q : ℝ × ℝ | q.1 ^ 2 + q.2 ^ 2 ≤ g z} := measurableSet_le (by fun_prop) (by fun_prop)
    rw [← hD z hz, ← integral_const_mul, ← integral_indicator hmd]
    congr 1
    ext q
    by_cases hq : q.1 ^ 2 + q.2 ^ 2 ≤ g z
    · rw [indicator_of_mem (show (z, q) ∈ T from ⟨hz, hq⟩), indicator_of_mem (show q ∈ {q : ℝ × ℝ | q.1 ^ 2 + q.2 ^ 2 ≤ g z} from hq)]
    · rw [indicator_of_notMem (show (z, q) ∉ T from fun h => hq h.2), indicator_of_notMem (show q ∉ {q : ℝ × ℝ | q.1 ^ 2 + q.2 ^ 2 ≤ g z} from hq)]
  · rw [indicator_of_notMem hz]
    have : ∀ q, T.indicator (fun t : ℝ × (ℝ × ℝ) => F t.1 * f t.2) (z, q) = 0 := fun q => indicator_of_notMem (fun h => hz h.1) _
    simp only [this, integral_zero]

/-- The moments of a compact set up to order two, in coordinates whose origin is the centroid and whose
axes are principal. -/
structure Has (U : Set (Fin 3 → ℝ)) (V : ℝ) (s : Fin 3 → ℝ) : Prop where
  cpt : IsCompact U
  zero : ∫ _ in U, (1 : ℝ) = V
  one : ∀ i, ∫ p in U, p i = 0
  two : ∀ i j, ∫ p in U, p i * p j = if i = j then s i else 0

/-- The moments of a solid of revolution. -/
theorem rev_has {g : ℝ → ℝ} (hg : Continuous g) {a b : ℝ} (hab : a ≤ b) (hpos : ∀ z ∈ Icc a b, 0 ≤ g z)
    {V sx sz : ℝ} (hV : π * ∫ z in a..b, g z = V) (h1 : ∫ z in a..b, z * g z = 0) (hx : π / 4 * ∫ z in a..b, g z ^ 2 = sx)
    (hz : π * ∫ z in a..b, z ^ 2 * g z = sz) : Has (Rev g a b) V ![sx, sx, sz] := by
  have c1 : Continuous fun _ : ℝ × ℝ => (1 : ℝ) := continuous_const
  have key : ∀ (F : ℝ → ℝ) (f : ℝ × ℝ → ℝ) (D : ℝ → ℝ), Continuous F → Continuous f →
      (∀ z, 0 ≤ g z → ∫ q in {q : ℝ × ℝ | q.1 ^ 2 + q.2 ^ 2 ≤ g z}, f q = D z) →
      ∫ p in Rev g a b, F (p 2) * f (p 0, p 1) = ∫ z in a..b, F z * D z := fun F f D hF hf hD =>
    rev_integral hg hab hF hf fun z hz => hD z (hpos z hz)
  have k00 := key (fun _ => 1) (fun q => q.1 ^ 2) _ (by fun_prop) (by fun_prop) fun z h => disk_xx h
  have k11 := key (fun _ => 1) (fun q => q.2 ^ 2) _ (by fun_prop) (by fun_prop) fun z h => disk_yy h
  have k01 := key (fun _ => 1) (fun q => q.1 * q.2) _ (by fun_prop) (by fun_prop) fun z h => disk_xy h
  have k02 := key (fun z => z) (fun q => q.1) _ (by fun_prop) (by fun_prop) fun z h => disk_x h
  have k12 := key (fun z => z) (fun q => q.2) _ (by fun_prop) (by fun_prop) fun z h => disk_y h
  have k0 := key (fun _ => 1) (fun q => q.1) _ (by fun_prop) (by fun_prop) fun z h => disk_x h
  have k1 := key (fun _ => 1) (fun q => q.2) _ (by fun_prop) (by fun_prop) fun z h => disk_y h
  have k2 := key (fun z => z) (fun _ => 1) _ (by fun_prop) (by fun_prop) fun z h => disk_one h
  have k22 := key (fun z => z ^ 2) (fun _ => 1) _ (by fun_prop) (by fun_prop) fun z h => disk_one h
  have k := key (fun _ => 1) (fun _ => 1) _ (by fun_prop) (by fun_prop) fun z h => disk_one h
  have e2 : ∫ z in a..b, z * (π * g z) = π * ∫ z in a..b, z * g z := by
    rw [← intervalIntegral.integral_const_mul]; congr 1; ext z; ring
  have e22 : ∫ z in a..b, z ^ 2 * (π * g z) = π * ∫ z in a..b, z ^ 2 * g z := by
    rw [← intervalIntegral.integral_const_mul]; congr 1; ext z; ring
  rw [e2, h1] at k2
  rw [e22, hz] at k22
  simp only [one_mul, mul_one, mul_zero, intervalIntegral.integral_zero, intervalIntegral.integral_const_mul] at k00 k11 k01 k02 k12 k0 k1 k2 k22 k
  rw [hx] at k00 k11
  rw [hV] at k
  refine ⟨rev_compact hg a b, k, fun i => ?_, fun i j => ?_⟩
  · fin_cases i
    · exact k0
    · exact k1
    · exact k2
  · have sw : ∀ i j : Fin 3, ∫ p in Rev g a b, p i * p j = ∫ p in Rev g a b, p j * p i := fun i j => by
      congr 1; ext p; ring
    have sq : ∀ i : Fin 3, ∫ p in Rev g a b, p i * p i = ∫ p in Rev g a b, p i ^ 2 := fun i => by
      congr 1; ext p; ring
    fin_cases i <;> fin_cases j
    · exact (sq 0).trans k00
    · exact k01
    · exact (sw 0 2).trans k02
    · exact (sw 1 0).trans k01
    · exact (sq 1).trans k11
    · exact (sw 1 2).trans k12
    · exact k02
    · exact k12
    · exact (sq 2).trans k22

end Zeo.Moment

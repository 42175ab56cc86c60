import Verif.Lemmas.Mass
import Mathlib.MeasureTheory.Integral.Pi

/-! # Moments of the standard solids -/

namespace Zeo.Moment
open MeasureTheory Set Real Matrix

/-- The integral of a polynomial of degree four. -/
theorem ipoly {f : ℝ → ℝ} {a b : ℝ} (hab : a ≤ b) (c0 c1 c2 c3 c4 : ℝ)
    (h : ∀ z, a ≤ z → z ≤ b → f z = c0 + c1 * z + c2 * z ^ 2 + c3 * z ^ 3 + c4 * z ^ 4) :
    ∫ z in a..b, f z = c0 * (b - a) + c1 * (b ^ 2 - a ^ 2) / 2 + c2 * (b ^ 3 - a ^ 3) / 3 + c3 * (b ^ 4 - a ^ 4) / 4 + c4 * (b ^ 5 - a ^ 5) / 5 := by
  rw [intervalIntegral.integral_congr (g := fun z => c0 + c1 * z + c2 * z ^ 2 + c3 * z ^ 3 + c4 * z ^ 4)
    (fun z hz => by rw [uIcc_of_le hab] at hz; exact h z hz.1 hz.2)]
  rw [intervalIntegral.integral_eq_sub_of_hasDerivAt
    (f := fun z => c0 * z + c1 * (z ^ 2 / 2) + c2 * (z ^ 3 / 3) + c3 * (z ^ 4 / 4) + c4 * (z ^ 5 / 5))]
  · ring
  · intro z _
    have p : ∀ n : ℕ, HasDerivAt (fun z : ℝ => z ^ (n + 1) / ((n : ℝ) + 1)) (z ^ n) z := fun n => by
      have := (hasDerivAt_pow (n + 1) z).div_const ((n : ℝ) + 1)
      have e : (((n + 1 : ℕ) : ℝ) * z ^ (n + 1 - 1)) / ((n : ℝ) + 1) = z ^ n := by
        have : (n : ℝ) + 1 ≠ 0 := by positivity
        simp; field_simp
      rwa [e] at this
    have p1 := p 1; have p2 := p 2; have p3 := p 3; have p4 := p 4
    norm_num at p1 p2 p3 p4
    have := ((((hasDerivAt_id z).const_mul c0).add (p1.const_mul c1)).add (p2.const_mul c2)).add (p3.const_mul c3) |>.add (p4.const_mul c4)
    rw [mul_one] at this
    exact this
  · exact (by fun_prop : Continuous fun z : ℝ => c0 + c1 * z + c2 * z ^ 2 + c3 * z ^ 3 + c4 * z ^ 4).intervalIntegrable _ _

/-- The cylinder of radius 1 and height 1. -/
theorem has_cyl : Has (Rev (fun _ => 1) (-(1/2)) (1/2)) π ![π / 4, π / 4, π / 12] := by
  refine rev_has continuous_const (by norm_num) (fun _ _ => by norm_num) ?_ ?_ ?_ ?_
  · rw [ipoly (by norm_num) 1 0 0 0 0 fun z _ _ => by ring]; ring
  · rw [ipoly (by norm_num) 0 1 0 0 0 fun z _ _ => by ring]; ring
  · rw [ipoly (by norm_num) 1 0 0 0 0 fun z _ _ => by ring]; ring
  · rw [ipoly (by norm_num) 0 0 1 0 0 fun z _ _ => by ring]; ring

/-- The cone of base radius 1 and height 1. -/
theorem has_cone : Has (Rev (fun z => (3/4 - z) ^ 2) (-(1/4)) (3/4)) (π / 3) ![π / 20, π / 20, π / 80] := by
  refine rev_has (by fun_prop) (by norm_num) (fun _ _ => by positivity) ?_ ?_ ?_ ?_
  · rw [ipoly (by norm_num) (9/16) (-3/2) 1 0 0 fun z _ _ => by ring]; ring
  · rw [ipoly (by norm_num) 0 (9/16) (-3/2) 1 0 fun z _ _ => by ring]; ring
  · rw [ipoly (by norm_num) (81/256) (-27/16) (27/8) (-3) 1 fun z _ _ => by ring]; ring
  · rw [ipoly (by norm_num) 0 0 (9/16) (-3/2) 1 fun z _ _ => by ring]; ring

/-- The ball of radius 1. -/
theorem has_ball : Has (Rev (fun z => 1 - z ^ 2) (-1) 1) (4 * π / 3) ![4 * π / 15, 4 * π / 15, 4 * π / 15] := by
  refine rev_has (by fun_prop) (by norm_num) (fun z hz => by nlinarith [hz.1, hz.2]) ?_ ?_ ?_ ?_
  · rw [ipoly (by norm_num) 1 0 (-1) 0 0 fun z _ _ => by ring]; ring
  · rw [ipoly (by norm_num) 0 1 0 (-1) 0 fun z _ _ => by ring]; ring
  · rw [ipoly (by norm_num) 1 0 (-2) 0 1 fun z _ _ => by ring]; ring
  · rw [ipoly (by norm_num) 0 0 1 0 (-1) fun z _ _ => by ring]; ring

/-- The squared radius of a capsule at height `z` from its middle. -/
noncomputable def capG (R h : ℝ) (z : ℝ) : ℝ := R ^ 2 - (max (|z| - h / 2) 0) ^ 2

private theorem cap_split {R h : ℝ} (hR : 0 < R) (hh : 0 < h) {F : ℝ → ℝ} (hF : Continuous F) :
    ∫ z in (-(h / 2 + R))..(h / 2 + R), F z = (∫ z in (-(h / 2 + R))..(-(h / 2)), F z) + (∫ z in (-(h / 2))..(h / 2), F z) + ∫ z in (h / 2)..(h / 2 + R), F z := by
  rw [intervalIntegral.integral_add_adjacent_intervals, intervalIntegral.integral_add_adjacent_intervals] <;>
    exact hF.intervalIntegrable _ _

private theorem capG_low {R h z : ℝ} (hz : z ≤ -(h / 2)) (hh : 0 < h) : capG R h z = R ^ 2 - (z + h / 2) ^ 2 := by
  rw [capG, abs_of_nonpos (by linarith), max_eq_left (by linarith)]; ring
private theorem capG_mid {R h z : ℝ} (h1 : -(h / 2) ≤ z) (h2 : z ≤ h / 2) : capG R h z = R ^ 2 := by
  rw [capG, max_eq_right (by have := abs_le.2 ⟨h1, h2⟩; linarith)]; ring
private theorem capG_high {R h z : ℝ} (hz : h / 2 ≤ z) (hh : 0 < h) : capG R h z = R ^ 2 - (z - h / 2) ^ 2 := by
  rw [capG, abs_of_nonneg (by linarith), max_eq_left (by linarith)]

theorem capG_cont (R h : ℝ) : Continuous (capG R h) := by
  unfold capG; fun_prop

/-- The capsule of radius `R` about a segment of length `h`. -/
theorem has_capsule {R h : ℝ} (hR : 0 < R) (hh : 0 < h) : Has (Rev (capG R h) (-(h / 2 + R)) (h / 2 + R)) (π * (R ^ 2 * h + 4 * R ^ 3 / 3))
    ![π * (R ^ 4 * h / 4 + 4 * R ^ 5 / 15), π * (R ^ 4 * h / 4 + 4 * R ^ 5 / 15),
      π * (R ^ 2 * h ^ 3 / 12 + R ^ 3 * h ^ 2 / 3 + R ^ 4 * h / 2 + 4 * R ^ 5 / 15)] := by
  have hc := capG_cont R h
  refine rev_has hc (by linarith) ?_ ?_ ?_ ?_ ?_
  · rintro z ⟨h1, h2⟩
    have h3 : |z| - h / 2 ≤ R := by have := abs_le.2 ⟨h1, h2⟩; linarith
    unfold capG
    have h4 : max (|z| - h / 2) 0 ≤ R := max_le h3 hR.le
    have h5 : 0 ≤ max (|z| - h / 2) 0 := le_max_right _ _
    nlinarith
  · rw [cap_split hR hh hc, ipoly (by linarith) (R ^ 2 - h ^ 2 / 4) (-h) (-1) 0 0 fun z _ h2 => by rw [capG_low h2 hh]; ring,
      ipoly (by linarith) (R ^ 2) 0 0 0 0 fun z h1 h2 => by rw [capG_mid h1 h2]; ring,
      ipoly (by linarith) (R ^ 2 - h ^ 2 / 4) h (-1) 0 0 fun z h1 _ => by rw [capG_high h1 hh]; ring]
    ring
  · rw [cap_split hR hh (by fun_prop), ipoly (by linarith) 0 (R ^ 2 - h ^ 2 / 4) (-h) (-1) 0 fun z _ h2 => by rw [capG_low h2 hh]; ring,
      ipoly (by linarith) 0 (R ^ 2) 0 0 0 fun z h1 h2 => by rw [capG_mid h1 h2]; ring,
      ipoly (by linarith) 0 (R ^ 2 - h ^ 2 / 4) h (-1) 0 fun z h1 _ => by rw [capG_high h1 hh]; ring]
    ring
  · rw [cap_split hR hh (by fun_prop),
      ipoly (by linarith) ((R ^ 2 - h ^ 2 / 4) ^ 2) (-2 * h * (R ^ 2 - h ^ 2 / 4)) (h ^ 2 - 2 * (R ^ 2 - h ^ 2 / 4)) (2 * h) 1 fun z _ h2 => by rw [capG_low h2 hh]; ring,
      ipoly (by linarith) (R ^ 4) 0 0 0 0 fun z h1 h2 => by rw [capG_mid h1 h2]; ring,
      ipoly (by linarith) ((R ^ 2 - h ^ 2 / 4) ^ 2) (2 * h * (R ^ 2 - h ^ 2 / 4)) (h ^ 2 - 2 * (R ^ 2 - h ^ 2 / 4)) (-2 * h) 1 fun z h1 _ => by rw [capG_high h1 hh]; ring]
    ring
  · rw [cap_split hR hh (by fun_prop), ipoly (by linarith) 0 0 (R ^ 2 - h ^ 2 / 4) (-h) (-1) fun z _ h2 => by rw [capG_low h2 hh]; ring,
      ipoly (by linarith) 0 0 (R ^ 2) 0 0 fun z h1 h2 => by rw [capG_mid h1 h2]; ring,
      ipoly (by linarith) 0 0 (R ^ 2 - h ^ 2 / 4) h (-1) fun z h1 _ => by rw [capG_high h1 hh]; ring]
    ring

/-- The cube of edge 1. -/
theorem has_cube : Has (Icc (fun _ => -(1/2)) (fun _ => 1/2)) 1 ![1 / 12, 1 / 12, 1 / 12] := by
  have hpi : (Icc (fun _ => -(1/2)) (fun _ => 1/2) : Set (Fin 3 → ℝ)) = Set.pi univ fun _ => Icc (-(1/2)) (1/2) := by
    ext p; simp [Set.mem_pi, Pi.le_def, forall_and]
  have key : ∀ f0 f1 f2 : ℝ → ℝ, ∫ p in (Icc (fun _ => -(1/2)) (fun _ => 1/2) : Set (Fin 3 → ℝ)), f0 (p 0) * f1 (p 1) * f2 (p 2) =
      (∫ z in (-(1/2))..(1/2), f0 z) * (∫ z in (-(1/2))..(1/2), f1 z) * ∫ z in (-(1/2))..(1/2), f2 z := by
    intro f0 f1 f2
    have hm : MeasurableSet (Set.pi univ fun _ => Icc (-(1/2)) (1/2) : Set (Fin 3 → ℝ)) := MeasurableSet.univ_pi fun _ => measurableSet_Icc
    rw [hpi, ← integral_indicator hm]
    have e : ∀ p : Fin 3 → ℝ, (Set.pi univ fun _ => Icc (-(1/2)) (1/2)).indicator (fun p : Fin 3 → ℝ => f0 (p 0) * f1 (p 1) * f2 (p 2)) p =
        ∏ i : Fin 3, (Icc (-(1/2)) (1/2) : Set ℝ).indicator (![f0, f1, f2] i) (p i) := by
      intro p
      rw [Fin.prod_univ_three]
      by_cases hp : p ∈ (Set.pi univ fun _ => Icc (-(1/2)) (1/2) : Set (Fin 3 → ℝ))
      · rw [indicator_of_mem hp, indicator_of_mem (hp 0 trivial), indicator_of_mem (hp 1 trivial), indicator_of_mem (hp 2 trivial)]
        rfl
      · rw [indicator_of_notMem hp]
        have : ∃ i, p i ∉ (Icc (-(1/2)) (1/2) : Set ℝ) := by
          by_contra hcon; push Not at hcon; exact hp fun i _ => hcon i
        obtain ⟨i, hi⟩ := this
        fin_cases i
        · rw [indicator_of_notMem (show p 0 ∉ (Icc (-(1/2)) (1/2) : Set ℝ) from hi)]; ring
        · rw [indicator_of_notMem (show p 1 ∉ (Icc (-(1/2)) (1/2) : Set ℝ) from hi)]; ring
        · rw [indicator_of_notMem (show p 2 ∉ (Icc (-(1/2)) (1/2) : Set ℝ) from hi)]; ring
    simp only [e]
    rw [integral_fintype_prod_volume_eq_prod (fun i : Fin 3 => (Icc (-(1/2)) (1/2) : Set ℝ).indicator (![f0, f1, f2] i)), Fin.prod_univ_three]
    simp only [integral_indicator measurableSet_Icc, integral_Icc_eq_integral_Ioc]
    rw [← intervalIntegral.integral_of_le (by norm_num), ← intervalIntegral.integral_of_le (by norm_num), ← intervalIntegral.integral_of_le (by norm_num)]
    rfl
  have i0 : ∫ _ in (-(1/2) : ℝ)..(1/2), (1 : ℝ) = 1 := by rw [ipoly (by norm_num) 1 0 0 0 0 fun z _ _ => by ring]; ring
  have i1 : ∫ z in (-(1/2) : ℝ)..(1/2), z = 0 := by rw [ipoly (by norm_num) 0 1 0 0 0 fun z _ _ => by ring]; ring
  have i2 : ∫ z in (-(1/2) : ℝ)..(1/2), z * z = 1 / 12 := by rw [ipoly (by norm_num) 0 0 1 0 0 fun z _ _ => by ring]; ring
  refine ⟨isCompact_Icc, ?_, fun i => ?_, fun i j => ?_⟩
  · have := key (fun _ => 1) (fun _ => 1) (fun _ => 1)
    simpa only [i0, mul_one] using this
  · fin_cases i
    · have := key (fun z => z) (fun _ => 1) (fun _ => 1)
      simp only [i0, i1, mul_one, one_mul, mul_zero, zero_mul] at this
      exact this
    · have := key (fun _ => 1) (fun z => z) (fun _ => 1)
      simp only [i0, i1, mul_one, one_mul, mul_zero, zero_mul] at this
      exact this
    · have := key (fun _ => 1) (fun _ => 1) (fun z => z)
      simp only [i0, i1, mul_one, one_mul, mul_zero, zero_mul] at this
      exact this
  · have sw : ∀ i j : Fin 3, ∫ p in (Icc (fun _ => -(1/2)) (fun _ => 1/2) : Set (Fin 3 → ℝ)), p i * p j =
        ∫ p in (Icc (fun _ => -(1/2)) (fun _ => 1/2) : Set (Fin 3 → ℝ)), p j * p i := fun i j => by
      congr 1; ext p; ring
    have k00 := key (fun z => z * z) (fun _ => 1) (fun _ => 1)
    have k11 := key (fun _ => 1) (fun z => z * z) (fun _ => 1)
    have k22 := key (fun _ => 1) (fun _ => 1) (fun z => z * z)
    have k01 := key (fun z => z) (fun z => z) (fun _ => 1)
    have k02 := key (fun z => z) (fun _ => 1) (fun z => z)
    have k12 := key (fun _ => 1) (fun z => z) (fun z => z)
    simp only [i0, i1, i2, mul_one, one_mul, mul_zero, zero_mul] at k00 k11 k22 k01 k02 k12
    fin_cases i <;> fin_cases j
    · exact k00
    · exact k01
    · exact k02
    · exact (sw 1 0).trans k01
    · exact k11
    · exact k12
    · exact (sw 2 0).trans k02
    · exact (sw 2 1).trans k12
    · exact k22

end Zeo.Moment

import Verif.Props.C69
import Verif.Lemmas.Hull

/-! # Polar sets of finitely many points in space -/

namespace Zeo.Polar
open Spec QHGeom

/-- Points with inner product at most one with all of `D`. -/
def polar (D : List (Vec3 ℝ)) : Set (Vec3 ℝ) := {x | ∀ y ∈ D, dot y x ≤ 1}

theorem dot_comm (a b : Vec3 ℝ) : dot a b = dot b a := by unfold dot; ring
theorem dot_mul (a b : Vec3 ℝ) (t : ℝ) : dot a (b.mul t) = t * dot a b := by unfold dot Vec3.mul; ring
theorem dot_add (a b c : Vec3 ℝ) : dot a (b.add c) = dot a b + dot a c := by unfold dot Vec3.add; ring
theorem dot_sub (a b c : Vec3 ℝ) : dot a (b.sub c) = dot a b - dot a c := by unfold dot Vec3.sub; ring
theorem dot_self_pos {a : Vec3 ℝ} (h : a ≠ .zero) : 0 < dot a a := by
  by_contra hc
  have h0 : dot a a ≤ 0 := not_lt.1 hc
  unfold dot at h0
  have hx : a.x = 0 := by nlinarith [mul_self_nonneg a.x, mul_self_nonneg a.y, mul_self_nonneg a.z]
  have hy : a.y = 0 := by nlinarith [mul_self_nonneg a.x, mul_self_nonneg a.y, mul_self_nonneg a.z]
  have hz : a.z = 0 := by nlinarith [mul_self_nonneg a.x, mul_self_nonneg a.y, mul_self_nonneg a.z]
  exact h (Vec3.ext hx hy hz)

/-- A bound for the inner products with finitely many points. -/
theorem bound (D : List (Vec3 ℝ)) (w : Vec3 ℝ) : ∃ k, 0 < k ∧ ∀ y ∈ D, |dot y w| ≤ k := by
  induction D with
  | nil => exact ⟨1, one_pos, by simp⟩
  | cons a D ih =>
    obtain ⟨k, h0, h⟩ := ih
    refine ⟨k + |dot a w|, by positivity, ?_⟩
    intro y hy
    rcases List.mem_cons.1 hy with rfl | hy
    · linarith
    · have := h y hy
      have := abs_nonneg (dot a w)
      linarith

section
variable {D : List (Vec3 ℝ)} {R : ℝ} (hR : ∀ x ∈ polar D, dot x x ≤ R ^ 2)
include hR

/-- No direction is behind all the points, if the polar set is bounded. -/
theorem no_ray {m : Vec3 ℝ} (hm : m ≠ .zero) : ∃ y ∈ D, 0 < dot y m := by
  by_contra hc
  push Not at hc
  have h := dot_self_pos hm
  have h1 : ∀ t : ℝ, 0 ≤ t → t ^ 2 * dot m m ≤ R ^ 2 := by
    intro t ht
    have := hR (m.mul t) (fun y hy => by
      rw [dot_mul]
      have := mul_nonpos_of_nonneg_of_nonpos ht (hc y hy)
      linarith)
    rw [dot_mul, dot_comm, dot_mul] at this
    linarith
  have h2 := h1 (Real.sqrt ((R ^ 2 + 1) / dot m m)) (Real.sqrt_nonneg _)
  rw [Real.sq_sqrt (by positivity), div_mul_cancel₀ _ h.ne'] at h2
  linarith

theorem not_coplanar : ¬ Coplanar {y | y ∈ D} := by
  rintro ⟨n, hn, c, hc⟩
  obtain ⟨y, hy, h1⟩ := no_ray hR hn
  have hn' : n.mul (-1) ≠ .zero := by
    intro e
    apply hn
    simp only [Vec3.mul, Vec3.zero, Vec3.mk.injEq] at e
    exact Vec3.ext (by show n.x = 0; linarith) (by show n.y = 0; linarith) (by show n.z = 0; linarith)
  obtain ⟨z, hz, h2⟩ := no_ray hR hn'
  rw [dot_mul] at h2
  have e1 := hc y hy
  have e2 := hc z hz
  rw [dot_comm] at e1 e2
  linarith

variable {F : List (Vec3 ℝ × Vec3 ℝ)} (hv : ∀ g ∈ F, g.2 ∈ D) (hu : ∀ g ∈ F, dot g.1 g.1 = 1)
  (hF : ∀ q, InHull {y | y ∈ D} q ↔ ∀ g ∈ F, dot g.1 (q.sub g.2) ≤ 0)
include hv hu hF

/-- The planes of the faces of the hull keep a distance from the origin. -/
theorem offset (hR0 : 0 < R) {g : Vec3 ℝ × Vec3 ℝ} (hg : g ∈ F) : 1 / R ≤ dot g.1 g.2 := by
  have hm : g.1 ≠ .zero := by
    intro e
    have := hu g hg
    rw [e] at this
    simp [dot, Vec3.zero] at this
  have hD : ∀ y ∈ D, dot g.1 y ≤ dot g.1 g.2 := by
    intro y hy
    have := (hF y).1 (Spec.InHull.self hy) g hg
    rw [dot_sub] at this
    linarith
  have hp : 0 < dot g.1 g.2 := by
    obtain ⟨y, hy, h1⟩ := no_ray hR hm
    have := hD y hy
    rw [dot_comm] at h1
    linarith
  have h1 := hR (g.1.mul (1 / dot g.1 g.2)) (fun y hy => by
    rw [dot_mul, one_div, inv_mul_le_iff₀ hp, mul_one, dot_comm]
    exact hD y hy)
  rw [dot_mul, dot_comm (g.1.mul _), dot_mul, hu g hg, mul_one, ← sq] at h1
  have h2 : 1 / dot g.1 g.2 ≤ R := by
    have := abs_le_of_sq_le_sq h1 hR0.le
    exact (le_abs_self _).trans this
  rw [div_le_iff₀ hp] at h2
  rw [div_le_iff₀ hR0]
  linarith

/-- The polar set is the hull of the points that correspond to the faces. -/
theorem polar_hull (hR0 : 0 < R) (x : Vec3 ℝ) :
    InHull {e | ∃ g ∈ F, e = g.1.mul (1 / dot g.1 g.2)} x ↔ x ∈ polar D := by
  have hpos : ∀ g ∈ F, 0 < dot g.1 g.2 := fun g hg =>
    lt_of_lt_of_le (by positivity) (offset hR hv hu hF hR0 hg)
  constructor
  · intro hx y hy
    refine dot_hull_le ?_ hx
    rintro e ⟨g, hg, rfl⟩
    rw [dot_mul, one_div, inv_mul_le_iff₀ (hpos g hg), mul_one, dot_comm]
    have := (hF y).1 (Spec.InHull.self hy) g hg
    rw [dot_sub] at this
    linarith
  · intro hx
    by_contra hc
    have hfin : {e | ∃ g ∈ F, e = g.1.mul (1 / dot g.1 g.2)}.Finite := by
      have : {e | ∃ g ∈ F, e = g.1.mul (1 / dot g.1 g.2)} = (fun g : Vec3 ℝ × Vec3 ℝ => g.1.mul (1 / dot g.1 g.2)) '' {g | g ∈ F} := by
        ext e
        constructor
        · rintro ⟨g, hg, rfl⟩; exact ⟨g, hg, rfl⟩
        · rintro ⟨g, hg, rfl⟩; exact ⟨g, hg, rfl⟩
      rw [this]
      exact (List.finite_toSet F).image _
    obtain ⟨w, hw⟩ := separate hfin hc
    have hw' : ∀ g ∈ F, dot g.1 w < dot w x * dot g.1 g.2 := by
      intro g hg
      have := hw _ ⟨g, hg, rfl⟩
      rw [dot_sub, dot_mul, one_div, sub_neg, inv_mul_lt_iff₀ (hpos g hg), dot_comm w] at this
      linarith
    rcases le_or_gt (dot w x) 0 with h0 | h0
    · -- the ray along `w` would be in the hull
      have ray : ∀ t : ℝ, 0 ≤ t → InHull {y | y ∈ D} (w.mul t) := by
        intro t ht
        rw [hF]
        intro g hg
        rw [dot_sub, dot_mul]
        have h1 := hw' g hg
        have h2 := mul_nonpos_of_nonpos_of_nonneg h0 (hpos g hg).le
        have h3 : t * dot g.1 w ≤ 0 := mul_nonpos_of_nonneg_of_nonpos ht (by linarith)
        linarith [hpos g hg]
      obtain ⟨k, hk0, hk⟩ := bound D w
      have hwne : w ≠ .zero := by
        intro e
        rw [e] at hw'
        have : dot Vec3.zero x = 0 := by simp [dot, Vec3.zero]
        rw [this] at hw'
        by_cases hFe : F = []
        · have := (hF (x.mul 0)).2 (by simp [hFe])
          obtain ⟨n, L, p, hp, -, hs, -⟩ := this
          rcases Nat.eq_zero_or_pos n with rfl | hn
          · simp at hs
          · have hD := hp ⟨0, hn⟩
            -- a hull without faces is the whole space
            have hall : ∀ q, InHull {y | y ∈ D} q := fun q => (hF q).2 (by simp [hFe])
            obtain ⟨k', hk0', hk'⟩ := bound D Vec3.ex
            have := dot_hull_le (w := Vec3.ex) (k := k') (fun v hv => by
              rw [dot_comm]; exact (le_abs_self _).trans (hk' v hv)) (hall ⟨k' + 1, 0, 0⟩)
            simp [dot, Vec3.ex] at this
            linarith
        · obtain ⟨g, hg⟩ := List.exists_mem_of_ne_nil _ hFe
          have := hw' g hg
          simp [dot, Vec3.zero] at this
      have hpw := dot_self_pos hwne
      have := dot_hull_le (w := w) (k := k) (fun v hv => by
        rw [dot_comm]; exact (le_abs_self _).trans (hk v hv)) (ray ((k + 1) / dot w w) (by positivity))
      rw [dot_mul, div_mul_cancel₀ _ hpw.ne'] at this
      linarith
    · have hin : InHull {y | y ∈ D} (w.mul (1 / dot w x)) := by
        rw [hF]
        intro g hg
        have h1 := hw' g hg
        rw [dot_sub, dot_mul, sub_nonpos, one_div, inv_mul_le_iff₀ h0]
        exact h1.le
      -- the strict inequality is lost at the origin of `w`; it is regained by a little more
      obtain ⟨k, hk0, hk⟩ : ∃ k, 1 < k ∧ ∀ g ∈ F, k * dot g.1 w ≤ dot w x * dot g.1 g.2 := by
        clear hin
        have : ∀ G : List (Vec3 ℝ × Vec3 ℝ), (∀ g ∈ G, g ∈ F) → ∃ k, 1 < k ∧ ∀ g ∈ G, k * dot g.1 w ≤ dot w x * dot g.1 g.2 := by
          intro G
          induction G with
          | nil => intro _; exact ⟨2, one_lt_two, by simp⟩
          | cons a G ih =>
            intro hG
            obtain ⟨k, h1, h2⟩ := ih fun g hg => hG g (List.mem_cons_of_mem _ hg)
            have ha := hw' a (hG a List.mem_cons_self)
            have hpa := mul_pos h0 (hpos a (hG a List.mem_cons_self))
            rcases le_or_gt (dot a.1 w) 0 with hs | hs
            · refine ⟨k, h1, ?_⟩
              intro g hg
              rcases List.mem_cons.1 hg with rfl | hg
              · nlinarith
              · exact h2 g hg
            · refine ⟨min k (dot w x * dot a.1 a.2 / dot a.1 w), lt_min h1 (by rw [lt_div_iff₀ hs]; linarith), ?_⟩
              intro g hg
              rcases List.mem_cons.1 hg with rfl | hg
              · calc _ ≤ (dot w x * dot g.1 g.2 / dot g.1 w) * dot g.1 w := mul_le_mul_of_nonneg_right (min_le_right _ _) hs.le
                  _ = _ := div_mul_cancel₀ _ hs.ne'
              · rcases le_or_gt (dot g.1 w) 0 with hs' | hs'
                · have hpg := mul_pos h0 (hpos g (hG g (List.mem_cons_of_mem _ hg)))
                  have : 0 < min k (dot w x * dot a.1 a.2 / dot a.1 w) := lt_min (by linarith) (by positivity)
                  nlinarith
                · exact (mul_le_mul_of_nonneg_right (min_le_left _ _) hs'.le).trans (h2 g hg)
        exact this F fun g hg => hg
      have hin' : InHull {y | y ∈ D} (w.mul (k / dot w x)) := by
        rw [hF]
        intro g hg
        have h1 := hk g hg
        rw [dot_sub, dot_mul, sub_nonpos, div_mul_eq_mul_div, div_le_iff₀ h0]
        linarith
      have := dot_hull_le (w := x) (k := 1) (fun v hv => by rw [dot_comm]; exact hx v hv) hin'
      rw [dot_mul, dot_comm x w, div_mul_cancel₀ _ h0.ne'] at this
      linarith
end

/-- A polar set contains a neighbourhood of the origin. -/
theorem polar_near (D : List (Vec3 ℝ)) (n : Vec3 ℝ) : ∃ ε > 0, n.mul ε ∈ polar D ∧ n.mul (-ε) ∈ polar D := by
  obtain ⟨k, h0, h⟩ := bound D n
  refine ⟨1 / k, by positivity, fun y hy => ?_, fun y hy => ?_⟩
  · rw [dot_mul, one_div, inv_mul_le_iff₀ h0, mul_one]
    exact (le_abs_self _).trans (h y hy)
  · rw [dot_mul, neg_mul, one_div, ← mul_neg, inv_mul_le_iff₀ h0, mul_one]
    exact (neg_le_abs _).trans (h y hy)

end Zeo.Polar

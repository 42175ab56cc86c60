import Verif.Spec.Hull
import Verif.Lemmas.Rot
import Mathlib.Tactic.FieldSimp
import Mathlib.Tactic.Linarith

/-! # Convex hulls: elementary facts -/

namespace Zeo

theorem Spec.InHull.mono {S T : Set (Vec3 ℝ)} (h : S ⊆ T) {q : Vec3 ℝ} (hq : Spec.InHull S q) : Spec.InHull T q := by
  obtain ⟨n, L, p, hp, h1⟩ := hq
  exact ⟨n, L, p, fun i => h (hp i), h1⟩

theorem Spec.InHull.self {S : Set (Vec3 ℝ)} {q : Vec3 ℝ} (hq : q ∈ S) : Spec.InHull S q :=
  ⟨1, fun _ => 1, fun _ => q, fun _ => hq, by simp, by simp, by simp⟩

/-- Convex combinations of two points of a hull. -/
theorem Spec.InHull.conv {S : Set (Vec3 ℝ)} {p q : Vec3 ℝ} (hp : Spec.InHull S p) (hq : Spec.InHull S q) {a b : ℝ}
    (ha : 0 ≤ a) (hb : 0 ≤ b) (hab : a + b = 1) : Spec.InHull S (Spec.comb a b 0 0 p q p p) := by
  obtain ⟨n, L, u, h1, h2, h3, rfl⟩ := hp
  obtain ⟨m, M, v, g1, g2, g3, rfl⟩ := hq
  refine ⟨n + m, Fin.append (fun i => a * L i) (fun i => b * M i), Fin.append u v, ?_, ?_, ?_, ?_⟩
  · intro i
    refine Fin.addCases (fun j => ?_) (fun j => ?_) i
    · simpa using h1 j
    · simpa using g1 j
  · intro i
    refine Fin.addCases (fun j => ?_) (fun j => ?_) i
    · simpa using mul_nonneg ha (h2 j)
    · simpa using mul_nonneg hb (g2 j)
  · rw [Fin.sum_univ_add]
    simp [← Finset.mul_sum, h3, g3, hab]
  · ext <;> simp [Spec.comb, Fin.sum_univ_add, Finset.mul_sum, mul_assoc]

/-- Hulls of hulls. -/
theorem Spec.InHull.trans {S T : Set (Vec3 ℝ)} (h : ∀ p ∈ S, Spec.InHull T p) {q : Vec3 ℝ} (hq : Spec.InHull S q) :
    Spec.InHull T q := by
  obtain ⟨n, L, p, hp, hL, hs, rfl⟩ := hq
  -- by induction on the number of points, with any positive total weight
  have key : ∀ (n : ℕ) (L : Fin n → ℝ) (p : Fin n → Vec3 ℝ), (∀ i, p i ∈ S) → (∀ i, 0 ≤ L i) → 0 < ∑ i, L i →
      Spec.InHull T ⟨(∑ i, L i * (p i).x) / ∑ i, L i, (∑ i, L i * (p i).y) / ∑ i, L i, (∑ i, L i * (p i).z) / ∑ i, L i⟩ := by
    intro n
    induction n with
    | zero => intro L p _ _ h0; simp at h0
    | succ n ih =>
      intro L p hp hL h0
      simp only [Fin.sum_univ_succ] at h0 ⊢
      set W := ∑ i : Fin n, L i.succ with hW
      have hW0 : 0 ≤ W := Finset.sum_nonneg fun i _ => hL _
      rcases hW0.lt_or_eq with hpos | hzero
      · have h1 := ih (fun i => L i.succ) (fun i => p i.succ) (fun i => hp _) (fun i => hL _) hpos
        have h2 := Spec.InHull.conv (h _ (hp 0)) h1 (a := L 0 / (L 0 + W)) (b := W / (L 0 + W))
          (div_nonneg (hL 0) h0.le) (div_nonneg hW0 h0.le) (by field_simp)
        convert h2 using 1
        simp only [← hW]
        ext <;> simp only [Spec.comb] <;> field_simp <;> ring
      · have hz : ∀ i : Fin n, L i.succ = 0 := fun i =>
          (Finset.sum_eq_zero_iff_of_nonneg (fun i _ => hL _)).1 (hW ▸ hzero.symm) i (Finset.mem_univ i)
        rw [← hzero] at h0 ⊢
        have hL0 : L 0 ≠ 0 := by linarith
        convert h _ (hp 0) using 1
        ext <;> simp [hz] <;> field_simp
  have := key n L p hp hL (by rw [hs]; norm_num)
  simpa [hs] using this

/-- A nonnegative combination of four points of a hull, divided by the sum of the weights. -/
theorem Spec.InHull.four {T : Set (Vec3 ℝ)} {a b c d : Vec3 ℝ} (ha : Spec.InHull T a) (hb : Spec.InHull T b) (hc : Spec.InHull T c)
    (hd : Spec.InHull T d) {x y z w : ℝ} (hx : 0 ≤ x) (hy : 0 ≤ y) (hz : 0 ≤ z) (hw : 0 ≤ w) (hs : 0 < x + y + z + w) :
    Spec.InHull T (Spec.comb (x / (x + y + z + w)) (y / (x + y + z + w)) (z / (x + y + z + w)) (w / (x + y + z + w)) a b c d) := by
  have h : Spec.InHull {p | Spec.InHull T p} (Spec.comb (x / (x + y + z + w)) (y / (x + y + z + w)) (z / (x + y + z + w)) (w / (x + y + z + w)) a b c d) := by
    refine ⟨4, ![x / (x + y + z + w), y / (x + y + z + w), z / (x + y + z + w), w / (x + y + z + w)], ![a, b, c, d], ?_, ?_, ?_, ?_⟩
    · intro i; fin_cases i <;> assumption
    · intro i; fin_cases i
      · exact div_nonneg hx hs.le
      · exact div_nonneg hy hs.le
      · exact div_nonneg hz hs.le
      · exact div_nonneg hw hs.le
    · simp [Fin.sum_univ_four]; field_simp
    · ext <;> simp [Spec.comb, Fin.sum_univ_four]
  exact Spec.InHull.trans (fun _ h => h) h

/-- The mean of a list of points is in its hull. -/
theorem Spec.InHull.mean {xs : List (Vec3 ℝ)} (hx : xs ≠ []) :
    Spec.InHull {p | p ∈ xs} ⟨(xs.map Vec3.x).sum / xs.length, (xs.map Vec3.y).sum / xs.length, (xs.map Vec3.z).sum / xs.length⟩ := by
  have hn : (xs.length : ℝ) ≠ 0 := by simpa using hx
  refine ⟨xs.length, fun _ => 1 / xs.length, fun i => xs[i.1], fun i => List.getElem_mem _, fun _ => by positivity, ?_, ?_⟩
  · simp only [Finset.sum_const, Finset.card_univ, Fintype.card_fin, nsmul_eq_mul]; field_simp
  · ext <;> simp only [← Finset.mul_sum] <;> rw [← Fin.sum_univ_fun_getElem] <;> ring

end Zeo

import Verif.Spec.BRep
import Mathlib.Tactic.FieldSimp
import Mathlib.Tactic.LinearCombination
import Mathlib.Tactic.Linarith
import Mathlib.Tactic.FinCases

/-! # Clipping a triangle: geometry -/

namespace Zeo
open Spec

/-- Corners of a triangle given as a function. -/
def cornersOf (P : Fin 3 → Vec3 ℝ) : Vec3 ℝ × Vec3 ℝ × Vec3 ℝ := (P 0, P 1, P 2)

/-- The point dividing a segment in the given ratio. -/
noncomputable def lerp (s : ℝ) (P Q : Vec3 ℝ) : Vec3 ℝ := comb (1 - s) s 0 0 P Q P P

/-- `i1, i2, i3` are the three corners in some order. -/
def Perm3 (i1 i2 i3 : Fin 3) : Prop := i1 ≠ i2 ∧ i2 ≠ i3 ∧ i1 ≠ i3

theorem mem_perm {i1 i2 i3 : Fin 3} (h : Perm3 i1 i2 i3) (T : Fin 3 → Vec3 ℝ) (q : Vec3 ℝ) :
    q ∈ triSet (cornersOf T) ↔ ∃ a b c, 0 ≤ a ∧ 0 ≤ b ∧ 0 ≤ c ∧ a + b + c = 1 ∧
      q = comb a b c 0 (T i1) (T i2) (T i3) (T i1) := by
  obtain ⟨h1, h2, h3⟩ := h
  have key : ∀ {A B C A' B' C' : Vec3 ℝ} (s : ℝ × ℝ × ℝ → ℝ × ℝ × ℝ),
      (∀ a b c, comb a b c 0 A B C A = comb (s (a, b, c)).1 (s (a, b, c)).2.1 (s (a, b, c)).2.2 0 A' B' C' A') →
      (∀ a b c, 0 ≤ a → 0 ≤ b → 0 ≤ c → a + b + c = 1 → 0 ≤ (s (a, b, c)).1 ∧ 0 ≤ (s (a, b, c)).2.1 ∧
        0 ≤ (s (a, b, c)).2.2 ∧ (s (a, b, c)).1 + (s (a, b, c)).2.1 + (s (a, b, c)).2.2 = 1) →
      (∃ a b c, 0 ≤ a ∧ 0 ≤ b ∧ 0 ≤ c ∧ a + b + c = 1 ∧ q = comb a b c 0 A B C A) →
      ∃ a b c, 0 ≤ a ∧ 0 ≤ b ∧ 0 ≤ c ∧ a + b + c = 1 ∧ q = comb a b c 0 A' B' C' A' := by
    rintro A B C A' B' C' s hs hp ⟨a, b, c, ha, hb, hc, hsum, rfl⟩
    obtain ⟨k1, k2, k3, k4⟩ := hp a b c ha hb hc hsum
    exact ⟨_, _, _, k1, k2, k3, k4, hs a b c⟩
  simp only [triSet, cornersOf, triangle, Set.mem_setOf_eq]
  fin_cases i1 <;> fin_cases i2 <;> fin_cases i3 <;> simp at h1 h2 h3 <;>
    simp only [Fin.zero_eta, Fin.mk_one, Fin.reduceFinMk] <;> first | done | constructor
  any_goals
    first
    | (refine key (fun w => (w.1, w.2.2, w.2.1)) ?_ ?_ <;>
        [(intro a b c; simp only [comb, Vec3.mk.injEq]; refine ⟨?_, ?_, ?_⟩ <;> ring; done);
         (intro a b c ha hb hc hs; exact ⟨ha, hc, hb, by dsimp only; linarith⟩)])
    | (refine key (fun w => (w.2.1, w.1, w.2.2)) ?_ ?_ <;>
        [(intro a b c; simp only [comb, Vec3.mk.injEq]; refine ⟨?_, ?_, ?_⟩ <;> ring; done);
         (intro a b c ha hb hc hs; exact ⟨hb, ha, hc, by dsimp only; linarith⟩)])
    | (refine key (fun w => (w.2.2, w.2.1, w.1)) ?_ ?_ <;>
        [(intro a b c; simp only [comb, Vec3.mk.injEq]; refine ⟨?_, ?_, ?_⟩ <;> ring; done);
         (intro a b c ha hb hc hs; exact ⟨hc, hb, ha, by dsimp only; linarith⟩)])
    | (refine key (fun w => (w.2.1, w.2.2, w.1)) ?_ ?_ <;>
        [(intro a b c; simp only [comb, Vec3.mk.injEq]; refine ⟨?_, ?_, ?_⟩ <;> ring; done);
         (intro a b c ha hb hc hs; exact ⟨hb, hc, ha, by dsimp only; linarith⟩)])
    | (refine key (fun w => (w.2.2, w.1, w.2.1)) ?_ ?_ <;>
        [(intro a b c; simp only [comb, Vec3.mk.injEq]; refine ⟨?_, ?_, ?_⟩ <;> ring; done);
         (intro a b c ha hb hc hs; exact ⟨hc, ha, hb, by dsimp only; linarith⟩)])

theorem normal_perm {i1 i2 i3 : Fin 3} (h : Perm3 i1 i2 i3) : ∃ s : ℝ, s * s = 1 ∧ ∀ T : Fin 3 → Vec3 ℝ,
    triNormal (cornersOf T) = (triNormal (T i1, T i2, T i3)).mul s := by
  obtain ⟨h1, h2, h3⟩ := h
  have e : ∀ {A B C A' B' C' : Vec3 ℝ} (s : ℝ), (triNormal (A, B, C)).x = (triNormal (A', B', C')).x * s →
      (triNormal (A, B, C)).y = (triNormal (A', B', C')).y * s →
      (triNormal (A, B, C)).z = (triNormal (A', B', C')).z * s →
      triNormal (A, B, C) = (triNormal (A', B', C')).mul s := by
    intro A B C A' B' C' s h1 h2 h3
    simp only [Vec3.mul]; ext <;> simp [h1, h2, h3, mul_comm]
  fin_cases i1 <;> fin_cases i2 <;> fin_cases i3 <;> simp at h1 h2 h3
  all_goals
    first
    | (refine ⟨1, by ring, fun T => ?_⟩
       simp only [cornersOf]
       apply e <;> simp only [triNormal] <;> simp <;> ring; done)
    | (refine ⟨-1, by ring, fun T => ?_⟩
       simp only [cornersOf]
       apply e <;> simp only [triNormal] <;> simp <;> ring)


/-- `out` is what is left of the triangle `P` below height zero, where `D` are the heights of its corners:
points of negative height are covered; the corners of the parts are points of the triangle of height at most
zero; the parts have the orientation of the triangle. -/
structure Clips (P : Fin 3 → Vec3 ℝ) (D : Fin 3 → ℝ) (out : List (Fin 3 → Vec3 ℝ)) : Prop where
  cover : ∀ a b c, 0 ≤ a → 0 ≤ b → 0 ≤ c → a + b + c = 1 → a * D 0 + b * D 1 + c * D 2 < 0 →
    ∃ T ∈ out, comb a b c 0 (P 0) (P 1) (P 2) (P 0) ∈ triSet (cornersOf T)
  below : ∀ T ∈ out, ∀ i, ∃ a b c, 0 ≤ a ∧ 0 ≤ b ∧ 0 ≤ c ∧ a + b + c = 1 ∧ a * D 0 + b * D 1 + c * D 2 ≤ 0 ∧
    T i = comb a b c 0 (P 0) (P 1) (P 2) (P 0)
  orient : ∀ T ∈ out, ∃ k, 0 < k ∧ triNormal (cornersOf T) = (triNormal (cornersOf P)).mul k

/-- The clipping conditions may be checked with the corners in any order. -/
theorem Clips.of_perm {i1 i2 i3 : Fin 3} (h : Perm3 i1 i2 i3) {P : Fin 3 → Vec3 ℝ} {D : Fin 3 → ℝ}
    {out : List (Fin 3 → Vec3 ℝ)}
    (cover : ∀ a b c, 0 ≤ a → 0 ≤ b → 0 ≤ c → a + b + c = 1 → a * D i1 + b * D i2 + c * D i3 < 0 →
      ∃ T ∈ out, comb a b c 0 (P i1) (P i2) (P i3) (P i1) ∈ triSet (cornersOf T))
    (below : ∀ T ∈ out, ∀ i, ∃ a b c, 0 ≤ a ∧ 0 ≤ b ∧ 0 ≤ c ∧ a + b + c = 1 ∧
      a * D i1 + b * D i2 + c * D i3 ≤ 0 ∧ T i = comb a b c 0 (P i1) (P i2) (P i3) (P i1))
    (orient : ∀ T ∈ out, ∃ k, 0 < k ∧ triNormal (cornersOf T) = (triNormal (cornersOf P)).mul k) :
    Clips P D out := by
  refine ⟨?_, ?_, orient⟩
  · intro a b c ha hb hc hs hneg
    obtain ⟨h1, h2, h3⟩ := h
    have key : ∀ a' b' c', 0 ≤ a' → 0 ≤ b' → 0 ≤ c' → a' + b' + c' = 1 →
        a' * D i1 + b' * D i2 + c' * D i3 = a * D 0 + b * D 1 + c * D 2 →
        comb a' b' c' 0 (P i1) (P i2) (P i3) (P i1) = comb a b c 0 (P 0) (P 1) (P 2) (P 0) →
        ∃ T ∈ out, comb a b c 0 (P 0) (P 1) (P 2) (P 0) ∈ triSet (cornersOf T) := by
      intro a' b' c' h1 h2 h3 h4 h5 h6
      rw [← h6]; exact cover a' b' c' h1 h2 h3 h4 (h5 ▸ hneg)
    fin_cases i1 <;> fin_cases i2 <;> fin_cases i3 <;> simp at h1 h2 h3 <;>
      simp only [Fin.zero_eta, Fin.mk_one, Fin.reduceFinMk] at key
    · exact key a b c ha hb hc hs rfl rfl
    · exact key a c b ha hc hb (by linarith) (by ring) (by
        simp only [comb, Vec3.mk.injEq]; refine ⟨?_, ?_, ?_⟩ <;> ring)
    · exact key b a c hb ha hc (by linarith) (by ring) (by
        simp only [comb, Vec3.mk.injEq]; refine ⟨?_, ?_, ?_⟩ <;> ring)
    · exact key b c a hb hc ha (by linarith) (by ring) (by
        simp only [comb, Vec3.mk.injEq]; refine ⟨?_, ?_, ?_⟩ <;> ring)
    · exact key c a b hc ha hb (by linarith) (by ring) (by
        simp only [comb, Vec3.mk.injEq]; refine ⟨?_, ?_, ?_⟩ <;> ring)
    · exact key c b a hc hb ha (by linarith) (by ring) (by
        simp only [comb, Vec3.mk.injEq]; refine ⟨?_, ?_, ?_⟩ <;> ring)
  · intro T hT i
    obtain ⟨a, b, c, ha, hb, hc, hs, hl, he⟩ := below T hT i
    obtain ⟨h1, h2, h3⟩ := h
    have key : ∀ a' b' c', 0 ≤ a' → 0 ≤ b' → 0 ≤ c' → a' + b' + c' = 1 →
        a' * D 0 + b' * D 1 + c' * D 2 = a * D i1 + b * D i2 + c * D i3 →
        comb a b c 0 (P i1) (P i2) (P i3) (P i1) = comb a' b' c' 0 (P 0) (P 1) (P 2) (P 0) →
        ∃ a b c, 0 ≤ a ∧ 0 ≤ b ∧ 0 ≤ c ∧ a + b + c = 1 ∧ a * D 0 + b * D 1 + c * D 2 ≤ 0 ∧
          T i = comb a b c 0 (P 0) (P 1) (P 2) (P 0) := by
      intro a' b' c' h1 h2 h3 h4 h5 h6
      exact ⟨a', b', c', h1, h2, h3, h4, h5 ▸ hl, he.trans h6⟩
    fin_cases i1 <;> fin_cases i2 <;> fin_cases i3 <;> simp at h1 h2 h3 <;>
      simp only [Fin.zero_eta, Fin.mk_one, Fin.reduceFinMk] at key
    · exact key a b c ha hb hc hs rfl rfl
    · exact key a c b ha hc hb (by linarith) (by ring) (by
        simp only [comb, Vec3.mk.injEq]; refine ⟨?_, ?_, ?_⟩ <;> ring)
    · exact key b a c hb ha hc (by linarith) (by ring) (by
        simp only [comb, Vec3.mk.injEq]; refine ⟨?_, ?_, ?_⟩ <;> ring)
    · exact key c a b hc ha hb (by linarith) (by ring) (by
        simp only [comb, Vec3.mk.injEq]; refine ⟨?_, ?_, ?_⟩ <;> ring)
    · exact key b c a hb hc ha (by linarith) (by ring) (by
        simp only [comb, Vec3.mk.injEq]; refine ⟨?_, ?_, ?_⟩ <;> ring)
    · exact key c b a hc hb ha (by linarith) (by ring) (by
        simp only [comb, Vec3.mk.injEq]; refine ⟨?_, ?_, ?_⟩ <;> ring)

/-- Orientation of a part, corners compared in the same order. -/
theorem orient_perm {i1 i2 i3 : Fin 3} (h : Perm3 i1 i2 i3) {P T : Fin 3 → Vec3 ℝ} {k : ℝ} (hk : 0 < k)
    (e : triNormal (T i1, T i2, T i3) = (triNormal (P i1, P i2, P i3)).mul k) :
    ∃ k, 0 < k ∧ triNormal (cornersOf T) = (triNormal (cornersOf P)).mul k := by
  obtain ⟨s, hs, hn⟩ := normal_perm h
  refine ⟨k, hk, ?_⟩
  rw [hn T, hn P, e]
  simp only [Vec3.mul, Vec3.mk.injEq]
  refine ⟨?_, ?_, ?_⟩ <;> ring

/-- A face below the plane is kept. -/
theorem clips_keep {P : Fin 3 → Vec3 ℝ} {D : Fin 3 → ℝ} (h : ∀ i, D i ≤ 0) : Clips P D [P] := by
  refine ⟨fun a b c ha hb hc hs _ => ⟨P, by simp, ⟨a, b, c, ha, hb, hc, hs, rfl⟩⟩, ?_, ?_⟩
  · intro T hT i
    rw [List.mem_singleton] at hT; subst hT
    fin_cases i
    · exact ⟨1, 0, 0, by norm_num, le_refl _, le_refl _, by norm_num, by simpa using h 0, by simp [comb]⟩
    · exact ⟨0, 1, 0, le_refl _, by norm_num, le_refl _, by norm_num, by simpa using h 1, by simp [comb]⟩
    · exact ⟨0, 0, 1, le_refl _, le_refl _, by norm_num, by norm_num, by simpa using h 2, by simp [comb]⟩
  · intro T hT
    rw [List.mem_singleton] at hT; subst hT
    exact ⟨1, by norm_num, by simp [Vec3.mul]⟩

/-- A face above the plane is dropped. -/
theorem clips_drop {P : Fin 3 → Vec3 ℝ} {D : Fin 3 → ℝ} (h : ∀ i, 0 ≤ D i) : Clips P D [] := by
  refine ⟨fun a b c ha hb hc hs hneg => absurd hneg ?_, by simp, by simp⟩
  have := mul_nonneg ha (h 0); have := mul_nonneg hb (h 1); have := mul_nonneg hc (h 2); linarith

theorem forall_perm {i1 i2 i3 : Fin 3} (h : Perm3 i1 i2 i3) {p : Fin 3 → Prop} (h1 : p i1) (h2 : p i2)
    (h3 : p i3) : ∀ i, p i := by
  obtain ⟨k1, k2, k3⟩ := h
  intro i
  fin_cases i1 <;> fin_cases i2 <;> fin_cases i3 <;> simp at k1 k2 k3 <;> fin_cases i <;> assumption

/-- One corner below, one above, one on the plane. -/
theorem clips_E {i1 i2 i3 : Fin 3} (h : Perm3 i1 i2 i3) {P T : Fin 3 → Vec3 ℝ} {D : Fin 3 → ℝ} {s : ℝ}
    (d1 : D i1 = 0) (d2 : D i2 < 0) (s0 : 0 < s) (s1 : s < 1) (hs : (1 - s) * D i2 + s * D i3 = 0)
    (t1 : T i1 = P i1) (t2 : T i2 = P i2) (t3 : T i3 = lerp s (P i2) (P i3)) : Clips P D [T] := by
  refine Clips.of_perm h ?_ ?_ ?_
  · intro a b c ha hb hc hsum hneg
    refine ⟨T, by simp, (mem_perm h T _).2 ⟨a, b - c / s * (1 - s), c / s, ha, ?_, by positivity, ?_, ?_⟩⟩
    · have e : D i3 = -((1 - s) * D i2) / s := by field_simp; linarith
      rw [d1, e] at hneg
      have h2 : (b - c / s * (1 - s)) * D i2 < 0 := by
        calc (b - c / s * (1 - s)) * D i2 = a * 0 + b * D i2 + c * (-((1 - s) * D i2) / s) := by ring
          _ < 0 := hneg
      by_contra hcon
      exact absurd h2 (not_lt.2 (mul_nonneg_of_nonpos_of_nonpos (not_le.1 hcon).le d2.le))
    · field_simp; linear_combination s * hsum
    · rw [t1, t2, t3]
      simp only [comb, lerp, Vec3.mk.injEq]
      refine ⟨?_, ?_, ?_⟩ <;> field_simp <;> ring
  · intro T' hT
    rw [List.mem_singleton] at hT; subst hT
    refine forall_perm h ?_ ?_ ?_
    · exact ⟨1, 0, 0, by norm_num, le_refl _, le_refl _, by norm_num, by simp [d1], by simp [comb, t1]⟩
    · exact ⟨0, 1, 0, le_refl _, by norm_num, le_refl _, by norm_num, by simp [d2.le], by simp [comb, t2]⟩
    · refine ⟨0, 1 - s, s, le_refl _, by linarith, s0.le, by ring, by linarith, ?_⟩
      rw [t3]; simp only [comb, lerp, Vec3.mk.injEq]; refine ⟨?_, ?_, ?_⟩ <;> ring
  · intro T' hT
    rw [List.mem_singleton] at hT; subst hT
    refine orient_perm h s0 ?_
    rw [t1, t2, t3]
    simp only [triNormal, comb, lerp, Vec3.mul, Vec3.mk.injEq]
    refine ⟨?_, ?_, ?_⟩ <;> ring

/-- One corner below, two above. -/
theorem clips_V {i1 i2 i3 : Fin 3} (h : Perm3 i1 i2 i3) {P T : Fin 3 → Vec3 ℝ} {D : Fin 3 → ℝ} {s t : ℝ}
    (d1 : D i1 < 0) (s0 : 0 < s) (s1 : s < 1) (hs : (1 - s) * D i1 + s * D i3 = 0)
    (t0 : 0 < t) (t1 : t < 1) (ht : (1 - t) * D i1 + t * D i2 = 0)
    (e1 : T i1 = P i1) (e2 : T i2 = lerp t (P i1) (P i2)) (e3 : T i3 = lerp s (P i1) (P i3)) :
    Clips P D [T] := by
  refine Clips.of_perm h ?_ ?_ ?_
  · intro a b c ha hb hc hsum hneg
    refine ⟨T, by simp, (mem_perm h T _).2 ⟨1 - b / t - c / s, b / t, c / s, ?_, by positivity, by positivity,
      by ring, ?_⟩⟩
    · have e : D i3 = -((1 - s) * D i1) / s := by field_simp; linarith
      have e' : D i2 = -((1 - t) * D i1) / t := by field_simp; linarith
      have h2 : (1 - b / t - c / s) * D i1 < 0 := by
        have : (1 - b / t - c / s) * D i1 = a * D i1 + b * D i2 + c * D i3 := by
          rw [e, e']; field_simp; linear_combination (-(t * s) * D i1) * hsum
        rw [this]; exact hneg
      by_contra hcon
      exact absurd h2 (not_lt.2 (mul_nonneg_of_nonpos_of_nonpos (not_le.1 hcon).le d1.le))
    · rw [e1, e2, e3]
      have ea : a = 1 - b - c := by linarith
      subst ea
      simp only [comb, lerp, Vec3.mk.injEq]
      refine ⟨?_, ?_, ?_⟩ <;> field_simp <;> ring
  · intro T' hT
    rw [List.mem_singleton] at hT; subst hT
    refine forall_perm h ?_ ?_ ?_
    · exact ⟨1, 0, 0, by norm_num, le_refl _, le_refl _, by norm_num, by simp [d1.le], by simp [comb, e1]⟩
    · refine ⟨1 - t, t, 0, by linarith, t0.le, le_refl _, by ring, by linarith, ?_⟩
      rw [e2]; simp only [comb, lerp, Vec3.mk.injEq]; refine ⟨?_, ?_, ?_⟩ <;> ring
    · refine ⟨1 - s, 0, s, by linarith, le_refl _, s0.le, by ring, by linarith, ?_⟩
      rw [e3]; simp only [comb, lerp, Vec3.mk.injEq]; refine ⟨?_, ?_, ?_⟩ <;> ring
  · intro T' hT
    rw [List.mem_singleton] at hT; subst hT
    refine orient_perm h (mul_pos s0 t0) ?_
    rw [e1, e2, e3]
    simp only [triNormal, comb, lerp, Vec3.mul, Vec3.mk.injEq]
    refine ⟨?_, ?_, ?_⟩ <;> ring

/-- Two corners below, one above. -/
theorem clips_A {i1 i2 i3 : Fin 3} (h : Perm3 i1 i2 i3) (hc : i2 = i1 + 1) {P T U : Fin 3 → Vec3 ℝ}
    {D : Fin 3 → ℝ} {s t : ℝ}
    (d1 : 0 < D i1) (d2 : D i2 < 0) (d3 : D i3 < 0) (s0 : 0 < s) (s1 : s < 1)
    (hs : (1 - s) * D i1 + s * D i3 = 0)
    (t0 : 0 < t) (t1 : t < 1) (ht : (1 - t) * D i1 + t * D i2 = 0)
    (e1 : T i1 = lerp s (P i1) (P i3)) (e2 : T i2 = P i2) (e3 : T i3 = P i3)
    (u0 : U 0 = P i2) (u1 : U 1 = lerp s (P i1) (P i3)) (u2 : U 2 = lerp t (P i1) (P i2)) :
    Clips P D [U, T] := by
  have s1' : 0 < 1 - s := by linarith
  have t1' : 0 < 1 - t := by linarith
  refine Clips.of_perm h ?_ ?_ ?_
  · intro a b c ha hb hc' hsum hneg
    by_cases hcase : a * s ≤ c * (1 - s)
    · refine ⟨T, by simp, (mem_perm h T _).2 ⟨a / (1 - s), b, c - a / (1 - s) * s, by positivity, hb, ?_, ?_, ?_⟩⟩
      · rw [sub_nonneg, div_mul_eq_mul_div, div_le_iff₀ s1']; exact hcase
      · field_simp; linear_combination (1 - s) * hsum
      · rw [e1, e2, e3]
        simp only [comb, lerp, Vec3.mk.injEq]
        refine ⟨?_, ?_, ?_⟩ <;> field_simp <;> ring
    · push Not at hcase
      refine ⟨U, by simp, ?_⟩
      have hη : 0 ≤ (a - c / s * (1 - s)) / (1 - t) := by
        apply div_nonneg _ t1'.le
        rw [sub_nonneg, div_mul_eq_mul_div, div_le_iff₀ s0]; exact hcase.le
      refine ⟨b - (a - c / s * (1 - s)) / (1 - t) * t, c / s, (a - c / s * (1 - s)) / (1 - t), ?_, by positivity,
        hη, ?_, ?_⟩
      · have e : D i3 = -((1 - s) * D i1) / s := by field_simp; linarith
        have e' : D i2 = -((1 - t) * D i1) / t := by field_simp; linarith
        have h2 : (b - (a - c / s * (1 - s)) / (1 - t) * t) * D i2 < 0 := by
          have : (b - (a - c / s * (1 - s)) / (1 - t) * t) * D i2 = a * D i1 + b * D i2 + c * D i3 := by
            rw [e, e']; field_simp; ring
          rw [this]; exact hneg
        by_contra hcon
        exact absurd h2 (not_lt.2 (mul_nonneg_of_nonpos_of_nonpos (not_le.1 hcon).le d2.le))
      · have ea : a = 1 - b - c := by linarith
        subst ea; field_simp; ring
      · simp only [cornersOf, u0, u1, u2]
        simp only [comb, lerp, Vec3.mk.injEq]
        refine ⟨?_, ?_, ?_⟩ <;> field_simp <;> ring
  · have x2 : ∃ a b c, 0 ≤ a ∧ 0 ≤ b ∧ 0 ≤ c ∧ a + b + c = 1 ∧ a * D i1 + b * D i2 + c * D i3 ≤ 0 ∧
        lerp s (P i1) (P i3) = comb a b c 0 (P i1) (P i2) (P i3) (P i1) := by
      refine ⟨1 - s, 0, s, by linarith, le_refl _, s0.le, by ring, by linarith, ?_⟩
      simp only [comb, lerp, Vec3.mk.injEq]; refine ⟨?_, ?_, ?_⟩ <;> ring
    have x3 : ∃ a b c, 0 ≤ a ∧ 0 ≤ b ∧ 0 ≤ c ∧ a + b + c = 1 ∧ a * D i1 + b * D i2 + c * D i3 ≤ 0 ∧
        lerp t (P i1) (P i2) = comb a b c 0 (P i1) (P i2) (P i3) (P i1) := by
      refine ⟨1 - t, t, 0, by linarith, t0.le, le_refl _, by ring, by linarith, ?_⟩
      simp only [comb, lerp, Vec3.mk.injEq]; refine ⟨?_, ?_, ?_⟩ <;> ring
    have p2 : ∃ a b c, 0 ≤ a ∧ 0 ≤ b ∧ 0 ≤ c ∧ a + b + c = 1 ∧ a * D i1 + b * D i2 + c * D i3 ≤ 0 ∧
        P i2 = comb a b c 0 (P i1) (P i2) (P i3) (P i1) :=
      ⟨0, 1, 0, le_refl _, by norm_num, le_refl _, by norm_num, by simp [d2.le], by simp [comb]⟩
    have p3 : ∃ a b c, 0 ≤ a ∧ 0 ≤ b ∧ 0 ≤ c ∧ a + b + c = 1 ∧ a * D i1 + b * D i2 + c * D i3 ≤ 0 ∧
        P i3 = comb a b c 0 (P i1) (P i2) (P i3) (P i1) :=
      ⟨0, 0, 1, le_refl _, le_refl _, by norm_num, by norm_num, by simp [d3.le], by simp [comb]⟩
    intro T' hT
    simp only [List.mem_cons, List.not_mem_nil, or_false] at hT
    rcases hT with rfl | rfl
    · refine forall_perm (i1 := 0) (i2 := 1) (i3 := 2) ⟨by decide, by decide, by decide⟩ ?_ ?_ ?_
      · rw [u0]; exact p2
      · rw [u1]; exact x2
      · rw [u2]; exact x3
    · refine forall_perm h ?_ ?_ ?_
      · rw [e1]; exact x2
      · rw [e2]; exact p2
      · rw [e3]; exact p3
  · intro T' hT
    simp only [List.mem_cons, List.not_mem_nil, or_false] at hT
    rcases hT with rfl | rfl
    · refine ⟨s * (1 - t), by positivity, ?_⟩
      have e : triNormal (cornersOf P) = triNormal (P i1, P i2, P i3) := by
        obtain ⟨k1, k2, k3⟩ := h
        subst hc
        fin_cases i1 <;> fin_cases i3 <;> simp at k1 k2 k3 <;> simp [cornersOf, triNormal] <;>
          (try refine ⟨?_, ?_, ?_⟩) <;> ring
      rw [e]
      simp only [cornersOf, u0, u1, u2, triNormal, comb, lerp, Vec3.mul, Vec3.mk.injEq]
      refine ⟨?_, ?_, ?_⟩ <;> ring
    · refine orient_perm h s1' ?_
      rw [e1, e2, e3]
      simp only [triNormal, comb, lerp, Vec3.mul, Vec3.mk.injEq]
      refine ⟨?_, ?_, ?_⟩ <;> ring

end Zeo

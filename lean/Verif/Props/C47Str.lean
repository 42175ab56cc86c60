import Verif.Model.Small
import Verif.Props.C47
import Mathlib.Tactic

/-! # C47: colours from strings -/

namespace Zeo

/-! ## Colours from strings -/

section
variable {K : Type*} [Field K] [LinearOrder K] [IsStrictOrderedRing K]

/-- A **string** gives a colour in range, whatever it holds, unless it begins with '#' and has fewer than three digits. -/
theorem C47_string (a2x : Char → BitVec 32) (scan : List Char → K × K × K) (s : Option (List Char)) :
    (∀ c, RGB.byStr a2x scan s = some c → Spec.ValidRGB c) ∧
    (RGB.byStr a2x scan s = none ↔ ∃ hex, s = some ('#' :: hex) ∧ hex.length < 3) := by
  have hn : ∀ n, Spec.ValidRGB (RGB.byName n : RGB K) := fun n => (C47_name n).1
  match s with
  | none => exact ⟨fun c e => by simp only [RGB.byStr, Option.some.injEq] at e; exact e ▸ hn _, by simp [RGB.byStr]⟩
  | some [] => exact ⟨fun c e => by simp only [RGB.byStr, Option.some.injEq] at e; exact e ▸ hn _, by simp [RGB.byStr]⟩
  | some (c :: l) =>
    by_cases hc : c = '#'
    · subst hc
      have e0 : RGB.byStr a2x scan (some ('#' :: l)) = RGB.ofHex (K := K) a2x l := by simp [RGB.byStr, RGB.decodeStr]
      rw [e0]
      constructor
      · intro c e
        unfold RGB.ofHex at e
        simp only at e
        split_ifs at e
        simp only [Option.some.injEq] at e
        rw [← e]; exact (C47_set _ _ _).1
      · rw [C47_hex_undefined]
        constructor
        · intro h; exact ⟨l, rfl, h⟩
        · rintro ⟨hex, e, h⟩; simp only [Option.some.injEq, List.cons.injEq, true_and] at e; rw [e]; exact h
    · have e1 : RGB.decodeStr a2x scan (c :: l) = some (RGB.ratio (scan (c :: l)).1 (scan (c :: l)).2.1 (scan (c :: l)).2.2) := by
        unfold RGB.decodeStr; split
        · rename_i h; simp only [List.cons.injEq] at h; exact absurd h.1 hc
        · rfl
      constructor
      · intro x e
        simp only [RGB.byStr, e1] at e
        split_ifs at e
        · simp only [Option.some.injEq] at e; rw [← e]; exact (C47_set _ _ _).1
        · simp only [Option.some.injEq] at e; rw [← e]; exact hn _
      · constructor
        · intro e; simp only [RGB.byStr, e1] at e; split_ifs at e
        · rintro ⟨hex, e, -⟩; simp only [Option.some.injEq, List.cons.injEq] at e; exact absurd e.1 hc

/-- A ratio that does not begin with a **digit** is taken for the name of a colour, and is black. -/
theorem C47_string_false (a2x : Char → BitVec 32) (scan : List Char → K × K × K) (h : scan ['.', '5', ':', '1', ':', '1'] = (1/2, 1, 1)) :
    RGB.decodeStr a2x scan ['.', '5', ':', '1', ':', '1'] = some ⟨1/2, 1, 1⟩ ∧
    RGB.byStr a2x scan (some ['.', '5', ':', '1', ':', '1']) = some ⟨0, 0, 0⟩ := by
  constructor
  · have e : (RGB.set (1/2) 1 1 : RGB K) = ⟨1/2, 1, 1⟩ := by
      have a : (0 : K) ≤ 1/2 := by norm_num
      have b : (1/2 : K) ≤ 1 := by norm_num
      simp only [RGB.set, zLimit]
      ext <;> simp <;> norm_num
    rw [← e]
    show some (RGB.ratio (scan ['.', '5', ':', '1', ':', '1']).1 (scan ['.', '5', ':', '1', ':', '1']).2.1 (scan ['.', '5', ':', '1', ':', '1']).2.2) = _
    rw [h]; rfl
  · have hd : ¬ (('.' : Char) = '#' ∨ Char.isDigit '.' = true) := by decide
    simp only [RGB.byStr, if_neg hd, Option.some.injEq]
    apply (C47_name _).2
    intro n hn
    simp only [Option.some.injEq] at hn
    subst hn
    decide

example : ∃ c : RGB ℚ, RGB.byStr (fun _ => 15#32) (fun _ => (0, 0, 0)) (some ['#', 'f', 'f', 'f']) = some c ∧ Spec.ValidRGB c := by
  cases h : RGB.byStr (K := ℚ) (fun _ => 15#32) (fun _ => (0, 0, 0)) (some ['#', 'f', 'f', 'f']) with
  | none => exact absurd (((C47_string _ _ _).2).1 h) (by simp)
  | some c => exact ⟨c, rfl, (C47_string _ _ _).1 c h⟩
end
end Zeo

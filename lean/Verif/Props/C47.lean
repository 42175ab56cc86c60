import Verif.Props.C46

/-! # C47: RGB components stay in [0,1] -/

namespace Zeo
variable {K : Type*} [Field K] [LinearOrder K] [IsStrictOrderedRing K]

theorem zLimit_mem (x : K) : 0 ≤ zLimit x (0:K) 1 ∧ zLimit x (0:K) 1 ≤ 1 := by
  unfold zLimit; split_ifs with h1 h2
  · exact ⟨le_rfl, zero_le_one⟩
  · exact ⟨zero_le_one, le_rfl⟩
  · exact ⟨not_lt.1 h1, not_lt.1 h2⟩

/-- `zRGBSet` clamps: the components of the result are in [0,1], and values already there are
kept. -/
theorem C47_set (r g b : K) : Spec.ValidRGB (RGB.set r g b) ∧
    (Spec.ValidRGB (⟨r, g, b⟩ : RGB K) → RGB.set r g b = ⟨r, g, b⟩) :=
  ⟨⟨zLimit_mem r, zLimit_mem g, zLimit_mem b⟩, RGB.set_of_mem⟩

/-- `zRGBMul` of any two colours, and of valid colours is the componentwise product. -/
theorem C47_mul (c1 c2 : RGB K) : Spec.ValidRGB (c1.mul c2) ∧
    (Spec.ValidRGB c1 → Spec.ValidRGB c2 → c1.mul c2 = ⟨c1.r * c2.r, c1.g * c2.g, c1.b * c2.b⟩) := by
  refine ⟨(C47_set _ _ _).1, fun h1 h2 => RGB.set_of_mem ?_⟩
  obtain ⟨⟨a0, a1⟩, ⟨b0, b1⟩, ⟨d0, d1⟩⟩ := h1
  obtain ⟨⟨a0', a1'⟩, ⟨b0', b1'⟩, ⟨d0', d1'⟩⟩ := h2
  exact ⟨⟨mul_nonneg a0 a0', mul_le_one₀ a1 a0' a1'⟩, ⟨mul_nonneg b0 b0', mul_le_one₀ b1 b0' b1'⟩,
    ⟨mul_nonneg d0 d0', mul_le_one₀ d1 d0' d1'⟩⟩

/-- `zRGBBlend` of valid colours at a ratio in [0,1] (the function itself does not clamp), with
the first colour at ratio 1 and the second at ratio 0. -/
theorem C47_blend (c1 c2 : RGB K) (k : K) (h1 : Spec.ValidRGB c1) (h2 : Spec.ValidRGB c2)
    (hk : 0 ≤ k ∧ k ≤ 1) :
    Spec.ValidRGB (c1.blend c2 k) ∧ c1.blend c2 1 = c1 ∧ c1.blend c2 0 = c2 := by
  obtain ⟨⟨a0, a1⟩, ⟨b0, b1⟩, ⟨d0, d1⟩⟩ := h1
  obtain ⟨⟨a0', a1'⟩, ⟨b0', b1'⟩, ⟨d0', d1'⟩⟩ := h2
  obtain ⟨k0, k1⟩ := hk
  refine ⟨⟨⟨?_, ?_⟩, ⟨?_, ?_⟩, ⟨?_, ?_⟩⟩, ?_, ?_⟩
  · simp only [RGB.blend]; nlinarith
  · simp only [RGB.blend]; nlinarith
  · simp only [RGB.blend]; nlinarith
  · simp only [RGB.blend]; nlinarith
  · simp only [RGB.blend]; nlinarith
  · simp only [RGB.blend]; nlinarith
  · ext <;> simp [RGB.blend]
  · ext <;> simp [RGB.blend]

/-- `zRGBToGS` of a valid colour. -/
theorem C47_grayscale (c : RGB K) (h : Spec.ValidRGB c) : Spec.ValidRGB c.toGS := by
  obtain ⟨⟨a0, a1⟩, ⟨b0, b1⟩, ⟨d0, d1⟩⟩ := h
  have e0 : 0 ≤ (c.r + c.g + c.b) / 3 := by positivity
  have e1 : (c.r + c.g + c.b) / 3 ≤ 1 := by rw [div_le_one (by norm_num)]; linarith
  exact ⟨⟨e0, e1⟩, ⟨e0, e1⟩, ⟨e0, e1⟩⟩

/-- `zHSV2RGB` of any triple: valid, or (hue negative) the destination is untouched. -/
theorem C47_hsv [FloorRing K] (c : HSV K) (old : RGB K) :
    Spec.ValidRGB (c.toRGB old) ∨ (c.hue < 0 ∧ c.toRGB old = old) := by
  unfold HSV.toRGB
  simp only
  split_ifs with h0 h1 h2 h3 h4 h5
  all_goals try exact Or.inl (C47_set _ _ _).1
  refine Or.inr ⟨?_, rfl⟩
  by_contra hn
  push Not at hn
  have hf : 0 ≤ ⌊c.hue / 60⌋ := Int.floor_nonneg.2 (div_nonneg hn (by norm_num))
  rw [Int.tmod_eq_emod_of_nonneg hf] at h0 h1 h2 h3 h4 h5
  omega

/-- Hexadecimal strings of any content and length: valid unless shorter than three digits. -/
theorem C47_hex_partial (a2x : Char → BitVec 32) (hex : List Char) (c : RGB K)
    (h : RGB.ofHex a2x hex = some c) : Spec.ValidRGB c := by
  unfold RGB.ofHex at h
  simp only at h
  split_ifs at h
  · rw [← Option.some.inj h]; exact (C47_set _ _ _).1

private theorem hexLoop_d (a2x : Char → BitVec 32) (l : List (Char × Char × Char)) :
    ∀ r g b d : BitVec 32, (l ≠ [] ∨ d ≠ 0 ∧ d &&& 0xf = 0xf) →
      (RGB.hexLoop a2x l (r, g, b, d)).2.2.2 ≠ 0 := by
  induction l with
  | nil => intro r g b d h; simp at h; exact h.1
  | cons p rest ih =>
    intro r g b d _
    obtain ⟨c1, c2, c3⟩ := p
    have key : d <<< 4 ||| 0xf ≠ 0 ∧ (d <<< 4 ||| 0xf) &&& 0xf = 0xf#32 := by
      constructor
      · intro h
        have := congrArg (fun x : BitVec 32 => x.getLsbD 0) h
        simp at this
      · ext i hi
        simp only [BitVec.getElem_and, BitVec.getElem_or]
        cases h15 : (0xf#32)[i]'hi <;> simp
    rw [RGB.hexLoop]
    exact ih _ _ _ _ (Or.inr key)

/-- The division by zero happens exactly for strings shorter than three characters. -/
theorem C47_hex_undefined (a2x : Char → BitVec 32) (hex : List Char) :
    RGB.ofHex (K := K) a2x hex = none ↔ hex.length < 3 := by
  have hl : RGB.hexDigits hex = [] ↔ hex.length < 3 := by
    rw [← List.length_eq_zero_iff]
    simp only [RGB.hexDigits, List.length_zip, List.length_take, List.length_drop]
    omega
  rw [← hl]
  unfold RGB.ofHex
  constructor
  · intro h
    by_contra hne
    simp only at h
    split_ifs at h with hd
    exact hexLoop_d a2x _ 0 0 0 0 (Or.inl hne) hd
  · intro h; rw [h]; simp [RGB.hexLoop]

/-- Colour names: any string, or NULL. Unknown names are black. -/
theorem C47_name (name : Option String) : Spec.ValidRGB (RGB.byName name : RGB K) ∧
    ((∀ n, name = some n → n ∉ ["black", "red", "green", "blue", "yellow", "cyan", "magenta", "white"]) →
      (RGB.byName name : RGB K) = ⟨0, 0, 0⟩) := by
  constructor
  · unfold RGB.byName
    split
    · exact (C47_set _ _ _).1
    · exact ⟨⟨le_rfl, zero_le_one⟩, ⟨le_rfl, zero_le_one⟩, ⟨le_rfl, zero_le_one⟩⟩
  · intro h
    cases name with
    | none => rfl
    | some n =>
      have := h n rfl
      simp only [List.mem_cons, List.not_mem_nil, or_false, not_or] at this
      obtain ⟨h1, h2, h3, h4, h5, h6, h7, h8⟩ := this
      have hf : (RGB.colorTable (K := K)).find? (fun p => p.1 = n) = none := by
        rw [List.find?_eq_none]
        intro p hp
        simp only [RGB.colorTable, List.mem_cons, List.not_mem_nil, or_false] at hp
        rcases hp with rfl | rfl | rfl | rfl | rfl | rfl | rfl | rfl <;> simp [eq_comm, *]
      simp [RGB.byName, hf]

/-- The eight names: the colour has exactly the primaries its name says, at full intensity. -/
theorem C47_name_primaries (n : String)
    (h : n ∈ ["black", "red", "green", "blue", "yellow", "cyan", "magenta", "white"]) :
    (RGB.byName (some n) : RGB K) =
      ⟨if n ∈ ["red", "yellow", "magenta", "white"] then 1 else 0,
       if n ∈ ["green", "yellow", "cyan", "white"] then 1 else 0,
       if n ∈ ["blue", "cyan", "magenta", "white"] then 1 else 0⟩ := by
  simp only [List.mem_cons, List.not_mem_nil, or_false] at h
  rcases h with rfl | rfl | rfl | rfl | rfl | rfl | rfl | rfl <;>
    simp [RGB.byName, RGB.colorTable, RGB.set, zLimit]

/-- **Violation** of the wider reading: the ZTK reader and C++ `set(intensity)` store the number
they are given, without clamping. -/
theorem C47_unclamped_setters : ∃ i : ℚ, ¬ Spec.ValidRGB (RGB.setGS i) ∧ ¬ Spec.ValidRGB (RGB.fromZTK i i i) :=
  ⟨2, by rintro ⟨⟨_, h⟩, _⟩; norm_num [RGB.setGS] at h, by rintro ⟨⟨_, h⟩, _⟩; norm_num [RGB.fromZTK] at h⟩

/-- Satisfiability: two valid colours and a ratio; a proper hexadecimal string. -/
example : Spec.ValidRGB (⟨1/2, 1/4, 1⟩ : RGB ℚ) ∧ (0 ≤ (1/3:ℚ) ∧ (1/3:ℚ) ≤ 1) ∧
    (RGB.ofHex (K := ℚ) (fun c => if c = 'f' then 15 else 3) ['f', '3', 'f']).isSome := by
  refine ⟨⟨⟨?_, ?_⟩, ⟨?_, ?_⟩, ⟨?_, ?_⟩⟩, ⟨?_, ?_⟩, ?_⟩ <;> first | decide +kernel | norm_num

end Zeo

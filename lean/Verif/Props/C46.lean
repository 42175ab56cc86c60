import Verif.Model.Color
import Mathlib.Tactic.NormNum
import Mathlib.Tactic.LinearCombination
import Mathlib.Data.Rat.Floor

/-! # C46: RGB and HSV round-trip -/

namespace Zeo
variable {K : Type*} [Field K] [LinearOrder K] [IsStrictOrderedRing K]

/-- All three components lie in [0,1]. -/
def Spec.ValidRGB (c : RGB K) : Prop :=
  (0 ≤ c.r ∧ c.r ≤ 1) ∧ (0 ≤ c.g ∧ c.g ≤ 1) ∧ (0 ≤ c.b ∧ c.b ≤ 1)

theorem zLimit_of_mem {x lo hi : K} (h : lo ≤ x ∧ x ≤ hi) : zLimit x lo hi = x := by
  rw [zLimit, if_neg (not_lt.2 h.1), if_neg (not_lt.2 h.2)]

theorem RGB.set_of_mem {r g b : K} (h : Spec.ValidRGB (⟨r, g, b⟩ : RGB K)) : RGB.set r g b = ⟨r, g, b⟩ := by
  obtain ⟨h1, h2, h3⟩ := h
  rw [RGB.set, zLimit_of_mem h1, zLimit_of_mem h2, zLimit_of_mem h3]

/-- The colour of sector `i` of the hue circle (0: red-yellow, 1: yellow-green, ...). -/
def RGB.sector (i : ℕ) (v p q t : K) : RGB K :=
  match i with
  | 0 => ⟨v, t, p⟩ | 1 => ⟨q, v, p⟩ | 2 => ⟨p, v, t⟩ | 3 => ⟨p, q, v⟩ | 4 => ⟨t, p, v⟩ | _ => ⟨v, p, q⟩

/-- Clamp all components. -/
def RGB.clamp (c : RGB K) : RGB K := RGB.set c.r c.g c.b

variable [FloorRing K]

/-- `zHSV2RGB` on the sector `i` with fraction `f`. -/
theorem HSV.toRGB_sector (i : ℕ) (hi : i < 6) (f s v : K) (hf0 : 0 ≤ f) (hf1 : f < 1) (old : RGB K) :
    HSV.toRGB ⟨60 * (i + f), s, v⟩ old =
      (RGB.sector i v (v * (1 - s)) (v * (1 - f * s)) (v * (1 - (1 - f) * s))).clamp := by
  have h60 : (60 : K) * (i + f) / 60 = i + f := by field_simp
  have hfl : ⌊(i : K) + f⌋ = (i : ℤ) := by
    rw [Int.floor_eq_iff]; constructor
    · push_cast; linarith
    · push_cast; linarith
  unfold HSV.toRGB
  simp only [h60, hfl]
  have hm : Int.tmod (i : ℤ) 6 = (i : ℤ) := by
    rw [Int.tmod_eq_emod_of_nonneg (by positivity)]; omega
  simp only [hm]
  have hx : (i : K) + f - ((i : ℤ) : K) = f := by push_cast; ring
  simp only [hx]
  obtain rfl | rfl | rfl | rfl | rfl | rfl : i = 0 ∨ i = 1 ∨ i = 2 ∨ i = 3 ∨ i = 4 ∨ i = 5 := by omega
  all_goals simp [RGB.sector, RGB.clamp]

omit [FloorRing K] in
private theorem frac_mem {a d : K} (hd : 0 < d) (h0 : 0 ≤ a) (h1 : a < d) : 0 ≤ a / d ∧ a / d < 1 :=
  ⟨div_nonneg h0 hd.le, (div_lt_one hd).2 h1⟩

omit [FloorRing K] in
private theorem pos_of_lt {a b : K} (h : a < b) : 0 < b - a := sub_pos.2 h

/-- The shape of the round trip: hue = 60(i+f), plus the three mixtures evaluated. -/
private theorem sector_back (i : ℕ) (hi : i < 6) (f d v : K) (hf0 : 0 ≤ f) (hf1 : f < 1)
    (hv : 0 < v) (old : RGB K) :
    HSV.toRGB ⟨60 * (i + f), d / v, v⟩ old =
      (RGB.sector i v (v - d) (v - f * d) (v - d + f * d)).clamp := by
  rw [HSV.toRGB_sector i hi f _ v hf0 hf1]
  have e1 : v * (1 - d / v) = v - d := by field_simp
  have e2 : v * (1 - f * (d / v)) = v - f * d := by field_simp
  have e3 : v * (1 - (1 - f) * (d / v)) = v - d + f * d := by field_simp; ring
  simp only [e1, e2, e3]

private theorem wrap (c old : RGB K) (h : Spec.ValidRGB c) (i : ℕ) (hi : i < 6) (f d v : K)
    (hf0 : 0 ≤ f) (hf1 : f < 1) (hv : 0 < v) (hv1 : v ≤ 1) (hd : 0 ≤ d) (hdv : d ≤ v)
    (hh : c.toHSV = ⟨60 * (i + f), d / v, v⟩)
    (hc : RGB.sector i v (v - d) (v - f * d) (v - d + f * d) = c) :
    HSV.toRGB c.toHSV old = c ∧ (0 ≤ c.toHSV.hue ∧ c.toHSV.hue < 360) ∧
    (0 ≤ c.toHSV.sat ∧ c.toHSV.sat ≤ 1) ∧ (0 ≤ c.toHSV.val ∧ c.toHSV.val ≤ 1) := by
  have hi' : (i : K) + 1 ≤ 6 := by exact_mod_cast hi
  have hi0 : (0 : K) ≤ i := by positivity
  rw [hh]
  refine ⟨?_, ⟨by positivity, by show 60 * ((i : K) + f) < 360; linarith⟩,
    ⟨by positivity, (div_le_one hv).2 hdv⟩, hv.le, hv1⟩
  rw [sector_back i hi f d v hf0 hf1 hv]
  rw [hc]
  exact RGB.set_of_mem h

/-- **Round trip.**  Every valid colour survives RGB → HSV → RGB, whatever the destination held;
the intermediate hue is in [0,360), saturation and value in [0,1]. -/
theorem C46_roundtrip (c old : RGB K) (h : Spec.ValidRGB c) :
    HSV.toRGB c.toHSV old = c ∧ (0 ≤ c.toHSV.hue ∧ c.toHSV.hue < 360) ∧
    (0 ≤ c.toHSV.sat ∧ c.toHSV.sat ≤ 1) ∧ (0 ≤ c.toHSV.val ∧ c.toHSV.val ≤ 1) := by
  obtain ⟨r, g, b⟩ := c
  have hV := h
  obtain ⟨⟨r0, r1⟩, ⟨g0, g1⟩, ⟨b0, b1⟩⟩ := h
  simp only at r0 r1 g0 g1 b0 b1
  have neg60 : ∀ {x : K}, 0 ≤ x → ¬ 60 * x < 0 := fun hx => not_lt.2 (by positivity)
  by_cases hrg : g < r
  · by_cases hrb : b < r
    · rcases le_or_gt b g with hgb | hgb
      · -- sector 0
        have hd : 0 < r - b := by linarith
        obtain ⟨f0, f1⟩ := frac_mem hd (sub_nonneg.2 hgb) (by linarith)
        refine wrap _ old hV 0 (by norm_num) ((g - b) / (r - b)) (r - b) r f0 f1 (by linarith) r1 hd.le (by linarith) ?_ ?_
        · have hx : 60 * (g - b) / (r - b) + 0 = 60 * (((0:ℕ):K) + (g - b) / (r - b)) := by push_cast; ring
          simp only [RGB.toHSV, gt_iff_lt, if_pos hrg, if_pos hrb, min_eq_right hgb, if_neg hd.ne',
            if_neg (show r ≠ 0 by intro e; linarith), hx, if_neg (neg60 (x := ((0:ℕ):K) + (g - b) / (r - b)) (by push_cast; linarith))]
        · ext <;> simp only [RGB.sector] <;> try field_simp
          all_goals ring
      · -- sector 5
        have hd : 0 < r - g := by linarith
        obtain ⟨f0, f1⟩ := frac_mem hd (a := r - b) (by linarith) (by linarith)
        refine wrap _ old hV 5 (by norm_num) ((r - b) / (r - g)) (r - g) r f0 f1 (by linarith) r1 hd.le (by linarith) ?_ ?_
        · have hx : 60 * (g - b) / (r - g) + 0 + 360 = 60 * (((5:ℕ):K) + (r - b) / (r - g)) := by
            push_cast; field_simp; ring
          have hneg : 60 * (g - b) / (r - g) + 0 < 0 := by
            rw [add_zero]; exact div_neg_of_neg_of_pos (by linarith) hd
          simp only [RGB.toHSV, gt_iff_lt, if_pos hrg, if_pos hrb, min_eq_left hgb.le, if_neg hd.ne',
            if_neg (show r ≠ 0 by intro e; linarith), if_pos hneg, hx]
        · ext <;> simp only [RGB.sector] <;> try field_simp
          all_goals ring
    · have hrb' : r ≤ b := not_lt.1 hrb
      have hd : 0 < b - g := by linarith
      rcases hrb'.lt_or_eq with hlt | rfl
      · obtain ⟨f0, f1⟩ := frac_mem hd (a := r - g) (by linarith) (by linarith)
        refine wrap _ old hV 4 (by norm_num) ((r - g) / (b - g)) (b - g) b f0 f1 (by linarith) b1 hd.le (by linarith) ?_ ?_
        · have hx : 60 * (r - g) / (b - g) + 240 = 60 * (((4:ℕ):K) + (r - g) / (b - g)) := by push_cast; ring
          simp only [RGB.toHSV, gt_iff_lt, if_pos hrg, if_neg hrb, if_neg hd.ne',
            if_neg (show b ≠ 0 by intro e; linarith), hx, if_neg (neg60 (x := ((4:ℕ):K) + (r - g) / (b - g)) (by push_cast; linarith))]
        · ext <;> simp only [RGB.sector] <;> try field_simp
          all_goals ring
      · refine wrap _ old hV 5 (by norm_num) 0 (r - g) r le_rfl one_pos (by linarith) b1 hd.le (by linarith) ?_ ?_
        · have hx : 60 * (r - g) / (r - g) + 240 = 60 * (((5:ℕ):K) + 0) := by push_cast; field_simp; norm_num
          simp only [RGB.toHSV, gt_iff_lt, if_pos hrg, if_neg hrb, if_neg hd.ne',
            if_neg (show r ≠ 0 by intro e; linarith), hx, if_neg (neg60 (x := ((5:ℕ):K) + 0) (by positivity))]
        · ext <;> simp only [RGB.sector] <;> ring
  · have hrg' : r ≤ g := not_lt.1 hrg
    by_cases hgb : b < g
    · rcases le_or_gt r b with hrb | hrb
      · have hd : 0 < g - r := by linarith
        obtain ⟨f0, f1⟩ := frac_mem hd (a := b - r) (by linarith) (by linarith)
        refine wrap _ old hV 2 (by norm_num) ((b - r) / (g - r)) (g - r) g f0 f1 (by linarith) g1 hd.le (by linarith) ?_ ?_
        · have hx : 60 * (b - r) / (g - r) + 120 = 60 * (((2:ℕ):K) + (b - r) / (g - r)) := by push_cast; ring
          simp only [RGB.toHSV, gt_iff_lt, if_neg hrg, if_pos hgb, min_eq_left hrb, if_neg hd.ne',
            if_neg (show g ≠ 0 by intro e; linarith), hx, if_neg (neg60 (x := ((2:ℕ):K) + (b - r) / (g - r)) (by push_cast; linarith))]
        · ext <;> simp only [RGB.sector] <;> try field_simp
          all_goals ring
      · have hd : 0 < g - b := by linarith
        obtain ⟨f0, f1⟩ := frac_mem hd (a := g - r) (by linarith) (by linarith)
        refine wrap _ old hV 1 (by norm_num) ((g - r) / (g - b)) (g - b) g f0 f1 (by linarith) g1 hd.le (by linarith) ?_ ?_
        · have hx : 60 * (b - r) / (g - b) + 120 = 60 * (((1:ℕ):K) + (g - r) / (g - b)) := by
            push_cast; field_simp; ring
          simp only [RGB.toHSV, gt_iff_lt, if_neg hrg, if_pos hgb, min_eq_right hrb.le, if_neg hd.ne',
            if_neg (show g ≠ 0 by intro e; linarith), hx, if_neg (neg60 (x := ((1:ℕ):K) + (g - r) / (g - b)) (by push_cast; linarith))]
        · ext <;> simp only [RGB.sector] <;> try field_simp
          all_goals ring
    · have hgb' : g ≤ b := not_lt.1 hgb
      rcases (hrg'.trans hgb').lt_or_eq with hlt | heq
      · have hd : 0 < b - r := by linarith
        rcases hrg'.lt_or_eq with hlt2 | rfl
        · obtain ⟨f0, f1⟩ := frac_mem hd (a := b - g) (by linarith) (by linarith)
          refine wrap _ old hV 3 (by norm_num) ((b - g) / (b - r)) (b - r) b f0 f1 (by linarith) b1 hd.le (by linarith) ?_ ?_
          · have hx : 60 * (r - g) / (b - r) + 240 = 60 * (((3:ℕ):K) + (b - g) / (b - r)) := by
              push_cast; field_simp; ring
            simp only [RGB.toHSV, gt_iff_lt, if_neg hrg, if_neg hgb, if_neg hd.ne',
              if_neg (show b ≠ 0 by intro e; linarith), hx, if_neg (neg60 (x := ((3:ℕ):K) + (b - g) / (b - r)) (by push_cast; linarith))]
          · ext <;> simp only [RGB.sector] <;> try field_simp
            all_goals ring
        · refine wrap _ old hV 4 (by norm_num) 0 (b - r) b le_rfl one_pos (by linarith) b1 hd.le (by linarith) ?_ ?_
          · have hx : 60 * (r - r) / (b - r) + 240 = 60 * (((4:ℕ):K) + 0) := by push_cast; rw [sub_self]; norm_num
            simp only [RGB.toHSV, gt_iff_lt, if_neg hrg, if_neg hgb, if_neg hd.ne',
              if_neg (show b ≠ 0 by intro e; linarith), hx, if_neg (neg60 (x := ((4:ℕ):K) + 0) (by positivity))]
          · ext <;> simp only [RGB.sector] <;> ring
      · obtain rfl : r = g := le_antisymm hrg' (by linarith)
        obtain rfl : r = b := heq
        rcases r0.lt_or_eq with hr | rfl
        · refine wrap _ old hV 0 (by norm_num) 0 0 r le_rfl one_pos hr r1 le_rfl hr.le ?_ ?_
          · simp [RGB.toHSV, hr.ne']
          · ext <;> simp [RGB.sector]
        · have e : (RGB.toHSV ⟨0, 0, 0⟩ : HSV K) = ⟨0, 0, 0⟩ := by simp [RGB.toHSV]
          rw [e]
          refine ⟨?_, ⟨le_rfl, by norm_num⟩, ⟨le_rfl, zero_le_one⟩, le_rfl, zero_le_one⟩
          simp [HSV.toRGB, RGB.set, zLimit]

/-- **Round trip the other way**: every HSV triple with hue in [0,360) and non-zero saturation and
value is recovered from its RGB. -/
theorem C46_roundtrip_hsv (c : HSV K) (old : RGB K) (hh : 0 ≤ c.hue ∧ c.hue < 360)
    (hs : 0 < c.sat ∧ c.sat ≤ 1) (hv : 0 < c.val ∧ c.val ≤ 1) : (c.toRGB old).toHSV = c := by
  obtain ⟨hue, s, v⟩ := c
  simp only at hh hs hv
  obtain ⟨s0, s1⟩ := hs
  obtain ⟨v0, v1⟩ := hv
  have hfl0 : 0 ≤ ⌊hue / 60⌋ := Int.floor_nonneg.2 (by linarith [div_nonneg hh.1 (by norm_num : (0:K) ≤ 60)])
  have hfl6 : ⌊hue / 60⌋ < 6 := by
    rw [Int.floor_lt]; push_cast; rw [div_lt_iff₀ (by norm_num)]; linarith [hh.2]
  obtain ⟨i, hi⟩ := Int.eq_ofNat_of_zero_le hfl0
  have hi6 : i < 6 := by omega
  obtain ⟨f, hf⟩ : ∃ f, f = hue / 60 - i := ⟨_, rfl⟩
  have hf0 : 0 ≤ f := by
    have := Int.floor_le (hue / 60); rw [hi] at this; push_cast at this; rw [hf]; linarith
  have hf1 : f < 1 := by
    have := Int.lt_floor_add_one (hue / 60); rw [hi] at this; push_cast at this; rw [hf]; linarith
  have hhue : hue = 60 * (i + f) := by rw [hf]; field_simp; ring
  subst hhue
  clear hf hi hfl0 hfl6 hh
  have hsv : 0 < v * s := mul_pos v0 s0
  have hle : v * s ≤ v := mul_le_of_le_one_right v0.le s1
  have hfs : f * (v * s) < v * s := by nlinarith
  have hfs0 : 0 ≤ f * (v * s) := by positivity
  rw [HSV.toRGB_sector i hi6 f s v hf0 hf1]
  have e1 : v * (1 - s) = v - v * s := by ring
  have e2 : v * (1 - f * s) = v - f * (v * s) := by ring
  have e3 : v * (1 - (1 - f) * s) = v - v * s + f * (v * s) := by ring
  simp only [e1, e2, e3]
  have hV : Spec.ValidRGB (RGB.sector i v (v - v * s) (v - f * (v * s)) (v - v * s + f * (v * s))) := by
    obtain rfl | rfl | rfl | rfl | rfl | rfl : i = 0 ∨ i = 1 ∨ i = 2 ∨ i = 3 ∨ i = 4 ∨ i = 5 := by omega
    all_goals
      refine ⟨⟨?_, ?_⟩, ⟨?_, ?_⟩, ⟨?_, ?_⟩⟩ <;> simp only [RGB.sector] <;> linarith
  have hcl : ∀ c : RGB K, Spec.ValidRGB c → c.clamp = c := fun c hc => RGB.set_of_mem hc
  rw [hcl _ hV]
  have hd : v * s ≠ 0 := hsv.ne'
  have hsat : v * s / v = s := by field_simp
  generalize v * s = d at *
  obtain rfl | rfl | rfl | rfl | rfl | rfl : i = 0 ∨ i = 1 ∨ i = 2 ∨ i = 3 ∨ i = 4 ∨ i = 5 := by omega
  · have c1 : v - d + f * d < v := by linarith
    have c2 : v - d < v := by linarith
    have c3 : v - d ≤ v - d + f * d := by linarith
    simp only [RGB.toHSV, RGB.sector, gt_iff_lt, if_pos c1, if_pos c2, min_eq_right c3, sub_sub_cancel, if_neg hd,
      if_neg v0.ne', hsat]
    have hx : 60 * (v - d + f * d - (v - d)) / d + 0 = 60 * (((0:ℕ):K) + f) := by push_cast; field_simp; ring
    rw [hx, if_neg (not_lt.2 (by positivity))]
  · have c1 : ¬ v < v - f * d := by linarith
    have c2 : v - d < v := by linarith
    have c3 : v - d ≤ v - f * d := by linarith
    simp only [RGB.toHSV, RGB.sector, gt_iff_lt, if_neg c1, if_pos c2, min_eq_right c3, sub_sub_cancel, if_neg hd,
      if_neg v0.ne', hsat]
    have hx : 60 * (v - d - (v - f * d)) / d + 120 = 60 * (((1:ℕ):K) + f) := by push_cast; field_simp; ring
    rw [hx, if_neg (not_lt.2 (by positivity))]
  · have c1 : ¬ v < v - d := by linarith
    have c2 : v - d + f * d < v := by linarith
    have c3 : v - d ≤ v - d + f * d := by linarith
    simp only [RGB.toHSV, RGB.sector, gt_iff_lt, if_neg c1, if_pos c2, min_eq_left c3, sub_sub_cancel, if_neg hd,
      if_neg v0.ne', hsat]
    have hx : 60 * (v - d + f * d - (v - d)) / d + 120 = 60 * (((2:ℕ):K) + f) := by push_cast; field_simp; ring
    rw [hx, if_neg (not_lt.2 (by positivity))]
  · have c1 : ¬ v - f * d < v - d := by linarith
    have c2 : ¬ v < v - f * d := by linarith
    simp only [RGB.toHSV, RGB.sector, gt_iff_lt, if_neg c1, if_neg c2, sub_sub_cancel, if_neg hd,
      if_neg v0.ne', hsat]
    have hx : 60 * (v - d - (v - f * d)) / d + 240 = 60 * (((3:ℕ):K) + f) := by push_cast; field_simp; ring
    rw [hx, if_neg (not_lt.2 (by positivity))]
  · have hx : 60 * (v - d + f * d - (v - d)) / d + 240 = 60 * (((4:ℕ):K) + f) := by push_cast; field_simp; ring
    have c2 : ¬ v < v - d + f * d := by linarith
    have c4 : ¬ v < v - d := by linarith
    rcases hf0.lt_or_eq with hp | rfl
    · have c1 : v - d < v - d + f * d := by have := mul_pos hp hsv; linarith
      simp only [RGB.toHSV, RGB.sector, gt_iff_lt, if_pos c1, if_neg c2, sub_sub_cancel, if_neg hd,
        if_neg v0.ne', hsat]
      rw [hx, if_neg (not_lt.2 (by positivity))]
    · simp only [zero_mul, add_zero] at hx ⊢
      simp only [RGB.toHSV, RGB.sector, gt_iff_lt, lt_irrefl, if_false, if_neg c4, sub_sub_cancel, if_neg hd,
        if_neg v0.ne', hsat]
      rw [hx, if_neg (not_lt.2 (by positivity))]
  · have c1 : v - d < v := by linarith
    rcases hf0.lt_or_eq with hp | rfl
    · have hx : 60 * (v - d - (v - f * d)) / d + 0 + 360 = 60 * (((5:ℕ):K) + f) := by push_cast; field_simp; ring
      have c2 : v - f * d < v := by have := mul_pos hp hsv; linarith
      have c3 : v - d ≤ v - f * d := by linarith
      have hn : 60 * (v - d - (v - f * d)) / d + 0 < 0 := by
        rw [add_zero]; exact div_neg_of_neg_of_pos (by linarith) hsv
      simp only [RGB.toHSV, RGB.sector, gt_iff_lt, if_pos c1, if_pos c2, min_eq_left c3, sub_sub_cancel, if_neg hd,
        if_neg v0.ne', hsat]
      rw [if_pos hn, hx]
    · have hx : 60 * d / d + 240 = 60 * (((5:ℕ):K) + 0) := by push_cast; field_simp; norm_num
      simp only [RGB.toHSV, RGB.sector, gt_iff_lt, if_pos c1, zero_mul, sub_zero, lt_irrefl, if_false, sub_sub_cancel,
        if_neg hd, if_neg v0.ne', hsat]
      rw [hx, if_neg (not_lt.2 (by positivity))]

/-- **Violation.**  The header documents the hue range as the closed interval [0,360], and hue 360
is hue 0; but `zHSV2RGB` maps pure red written with hue 360 to yellow. -/
theorem C46_hue360_violation :
    HSV.toRGB (⟨360, 1, 1⟩ : HSV ℚ) ⟨0, 0, 0⟩ = ⟨1, 1, 0⟩ ∧
    HSV.toRGB (⟨0, 1, 1⟩ : HSV ℚ) ⟨0, 0, 0⟩ = ⟨1, 0, 0⟩ := by decide +kernel

/-- A negative hue below -60 leaves the destination untouched. -/
theorem C46_negative_hue_untouched (old : RGB ℚ) : HSV.toRGB (⟨-120, 1, 1⟩ : HSV ℚ) old = old := by
  have h : Int.tmod ⌊(-120 : ℚ) / 60⌋ 6 = -2 := by decide +kernel
  simp [HSV.toRGB, h]

/-- Satisfiability. -/
example : Spec.ValidRGB (⟨1/2, 1/4, 1⟩ : RGB ℚ) ∧ (0 ≤ (200:ℚ) ∧ (200:ℚ) < 360) := by
  refine ⟨⟨⟨?_, ?_⟩, ⟨?_, ?_⟩, ⟨?_, ?_⟩⟩, ?_, ?_⟩ <;> norm_num

end Zeo

import Verif.Model.BBall
import Verif.Props.C22

/-! # Evaluation of the recursion for the bounding disk -/

namespace Zeo.BallEval
open Classical

/-- The recursion of `zVec2DDataBoundingBallRecursive`. -/
noncomputable def rec2 (τ : ℝ) (ps sh : List (Vec2 ℝ)) : Option Ball2 :=
  BBall.recursive 3 (bb2Direct τ) (fun b p => decide (b.ball.pointIsInside p τ)) ps sh

/-- Center and squared radius of a disk. -/
def IsDisk (b : Disk2 ℝ) (m : Vec2 ℝ) (R : ℝ) : Prop := b.center = m ∧ b.radius = Real.sqrt R

theorem IsDisk.ins {b : Disk2 ℝ} {m p : Vec2 ℝ} {R τ : ℝ} (h : IsDisk b m R) (τ0 : 0 < τ) (hp : Spec.sqd2 m p ≤ R) :
    b.pointIsInside p τ := by
  rw [(C22_disk b p τ).2, h.1, h.2, Spec.ed2]
  have := Real.sqrt_le_sqrt hp
  linarith

theorem IsDisk.out {b : Disk2 ℝ} {m p : Vec2 ℝ} {R τ : ℝ} (h : IsDisk b m R) (hτ : τ ≤ 1/100) (τ0 : 0 < τ)
    (hR : 0 ≤ R ∧ R ≤ 400) (hp : R + 1 ≤ Spec.sqd2 m p) : ¬ b.pointIsInside p τ := by
  rw [(C22_disk b p τ).2, h.1, h.2, Spec.ed2, not_lt]
  apply Real.le_sqrt_of_sq_le
  have r0 := Real.sqrt_nonneg R
  have r1 : Real.sqrt R ≤ 20 := by rw [Real.sqrt_le_left (by norm_num)]; linarith [hR.2]
  have r2 := Real.sq_sqrt hR.1
  nlinarith

theorem not_empty {p : Vec2 ℝ} {τ : ℝ} (hτ : τ ≤ 1/100) : ¬ (⟨.zero, -1⟩ : Disk2 ℝ).pointIsInside p τ := by
  rw [(C22_disk _ p τ).2, not_lt]
  have : 0 ≤ Spec.ed2 .zero p := Real.sqrt_nonneg _
  dsimp only
  linarith

theorem isf2 {a b m : Vec2 ℝ} {R : ℝ} (hx : (a.x + b.x) / 2 = m.x) (hy : (a.y + b.y) / 2 = m.y)
    (hR : (m.x - a.x)^2 + (m.y - a.y)^2 = R) : IsDisk (Disk2.from2 a b) m R := by
  have hc : (Disk2.from2 a b).center = m := by
    ext
    · rw [← hx]; simp only [Disk2.from2, zeo]; ring
    · rw [← hy]; simp only [Disk2.from2, zeo]; ring
  refine ⟨hc, ?_⟩
  rw [← (C22_disk_from2 a b).1, hc, Spec.ed2, ← hR]; rfl

theorem isf3 {a b c m : Vec2 ℝ} {R : ℝ} (hA : (b.x - a.x) * (c.y - a.y) - (b.y - a.y) * (c.x - a.x) ≠ 0)
    (h1 : (m.x - b.x)^2 + (m.y - b.y)^2 = (m.x - a.x)^2 + (m.y - a.y)^2)
    (h2 : (m.x - c.x)^2 + (m.y - c.y)^2 = (m.x - a.x)^2 + (m.y - a.y)^2)
    (hR : (m.x - a.x)^2 + (m.y - a.y)^2 = R) : IsDisk (Disk2.from3 a b c) m R := by
  have hA' : (b.sub a).outer (c.sub a) ≠ 0 := by simpa only [zeo] using hA
  obtain ⟨k1, k2⟩ := circumcenter2_bisect a b c hA'
  have hc : (Disk2.from3 a b c).center = m := by
    show Tri2.circumcenter a b c = m
    generalize Tri2.circumcenter a b c = n at *
    simp only [Spec.sqd2] at k1 k2
    ext
    · apply mul_left_cancel₀ hA
      linear_combination (c.y - a.y) / 2 * (h1 - k1) - (b.y - a.y) / 2 * (h2 - k2)
    · apply mul_left_cancel₀ hA
      linear_combination -(c.x - a.x) / 2 * (h1 - k1) + (b.x - a.x) / 2 * (h2 - k2)
  refine ⟨hc, ?_⟩
  rw [← (C22_disk_from3 a b c hA').1, hc, Spec.ed2, ← hR]; rfl

theorem rec_full {τ : ℝ} {p : Vec2 ℝ} {ps sh : List (Vec2 ℝ)} (h : sh.length = 3) : rec2 τ (p :: ps) sh = bb2Direct τ sh := by
  rw [rec2, BBall.recursive, if_pos h]

theorem rec_in {τ : ℝ} {p : Vec2 ℝ} {ps sh : List (Vec2 ℝ)} {r : Ball2} (h : sh.length ≠ 3) (h1 : rec2 τ ps sh = some r)
    (hi : r.ball.pointIsInside p τ) : rec2 τ (p :: ps) sh = some r := by
  rw [rec2] at h1
  rw [rec2, BBall.recursive, if_neg h, h1]
  simp [hi]

theorem rec_out {τ : ℝ} {p : Vec2 ℝ} {ps sh : List (Vec2 ℝ)} {r : Ball2} (h : sh.length ≠ 3) (h1 : rec2 τ ps sh = some r)
    (hi : ¬ r.ball.pointIsInside p τ) : rec2 τ (p :: ps) sh = rec2 τ ps (sh ++ [p]) := by
  rw [rec2] at h1
  rw [rec2, BBall.recursive, if_neg h, h1]
  simp [hi, rec2]

theorem three1 {τ : ℝ} {a b c : Vec2 ℝ} (h : (Disk2.from2 c b).pointIsInside a τ) :
    bb2Direct τ [a, b, c] = some ⟨Disk2.from2 c b, 2, [c, b]⟩ := by
  simp [bb2Direct, bb2Three, bb2Test2, h]

theorem three2 {τ : ℝ} {a b c : Vec2 ℝ} (h : ¬ (Disk2.from2 c b).pointIsInside a τ) (h2 : (Disk2.from2 b a).pointIsInside c τ) :
    bb2Direct τ [a, b, c] = some ⟨Disk2.from2 b a, 2, [b, a]⟩ := by
  simp [bb2Direct, bb2Three, bb2Test2, h, h2]

theorem three3 {τ : ℝ} {a b c : Vec2 ℝ} (h : ¬ (Disk2.from2 c b).pointIsInside a τ) (h2 : ¬ (Disk2.from2 b a).pointIsInside c τ)
    (h3 : (Disk2.from2 a c).pointIsInside b τ) : bb2Direct τ [a, b, c] = some ⟨Disk2.from2 a c, 2, [a, c]⟩ := by
  simp [bb2Direct, bb2Three, bb2Test2, h, h2, h3]

theorem three4 {τ : ℝ} {a b c : Vec2 ℝ} (h : ¬ (Disk2.from2 c b).pointIsInside a τ) (h2 : ¬ (Disk2.from2 b a).pointIsInside c τ)
    (h3 : ¬ (Disk2.from2 a c).pointIsInside b τ) : bb2Direct τ [a, b, c] = some ⟨Disk2.from3 c b a, 3, [c, b, a]⟩ := by
  simp [bb2Direct, bb2Three, bb2Test2, bb2Test3, h, h2, h3]

/-- Five points. -/
theorem bad5 {τ : ℝ} (τ0 : 0 < τ) (hτ : τ ≤ 1/100) :
    ∃ b, rec2 τ [⟨0, (-6)⟩, ⟨(-4), 2⟩, ⟨(-2), (-4)⟩, ⟨0, 4⟩, ⟨10, 0⟩] [] = some b ∧ b.num = 2 ∧ IsDisk b.ball ⟨0, (-1)⟩ 25 := by
  have h1 : rec2 τ [] [] = some ⟨⟨.zero, -1⟩, 0, []⟩ := rfl
  have h2 : IsDisk (⟨⟨10, 0⟩, 0⟩ : Disk2 ℝ) ⟨10, 0⟩ 0 := ⟨rfl, by simp⟩
  have h3 : rec2 τ [] [⟨10, 0⟩] = some ⟨⟨⟨10, 0⟩, 0⟩, 1, [⟨10, 0⟩]⟩ := rfl
  have h4 : rec2 τ [⟨10, 0⟩] [] = some ⟨⟨⟨10, 0⟩, 0⟩, 1, [⟨10, 0⟩]⟩ := (rec_out (by simp) h1 (not_empty hτ)).trans h3
  have h5 : IsDisk (⟨⟨0, 4⟩, 0⟩ : Disk2 ℝ) ⟨0, 4⟩ 0 := ⟨rfl, by simp⟩
  have h6 : rec2 τ [] [⟨0, 4⟩] = some ⟨⟨⟨0, 4⟩, 0⟩, 1, [⟨0, 4⟩]⟩ := rfl
  have h7 : IsDisk (Disk2.from2 ⟨0, 4⟩ ⟨10, 0⟩ : Disk2 ℝ) ⟨5, 2⟩ 29 := isf2 (by norm_num) (by norm_num) (by norm_num)
  have h8 : rec2 τ [] [⟨0, 4⟩, ⟨10, 0⟩] = some ⟨Disk2.from2 ⟨0, 4⟩ ⟨10, 0⟩, 2, [⟨0, 4⟩, ⟨10, 0⟩]⟩ := rfl
  have h9 : rec2 τ [⟨10, 0⟩] [⟨0, 4⟩] = some ⟨Disk2.from2 ⟨0, 4⟩ ⟨10, 0⟩, 2, [⟨0, 4⟩, ⟨10, 0⟩]⟩ := (rec_out (by simp) h6 (h5.out hτ τ0 (by norm_num) (by norm_num [Spec.sqd2]))).trans h8
  have h10 : rec2 τ [⟨0, 4⟩, ⟨10, 0⟩] [] = some ⟨Disk2.from2 ⟨0, 4⟩ ⟨10, 0⟩, 2, [⟨0, 4⟩, ⟨10, 0⟩]⟩ := (rec_out (by simp) h4 (h2.out hτ τ0 (by norm_num) (by norm_num [Spec.sqd2]))).trans h9
  have h11 : IsDisk (⟨⟨(-2), (-4)⟩, 0⟩ : Disk2 ℝ) ⟨(-2), (-4)⟩ 0 := ⟨rfl, by simp⟩
  have h12 : rec2 τ [] [⟨(-2), (-4)⟩] = some ⟨⟨⟨(-2), (-4)⟩, 0⟩, 1, [⟨(-2), (-4)⟩]⟩ := rfl
  have h13 : IsDisk (Disk2.from2 ⟨(-2), (-4)⟩ ⟨10, 0⟩ : Disk2 ℝ) ⟨4, (-2)⟩ 40 := isf2 (by norm_num) (by norm_num) (by norm_num)
  have h14 : rec2 τ [] [⟨(-2), (-4)⟩, ⟨10, 0⟩] = some ⟨Disk2.from2 ⟨(-2), (-4)⟩ ⟨10, 0⟩, 2, [⟨(-2), (-4)⟩, ⟨10, 0⟩]⟩ := rfl
  have h15 : rec2 τ [⟨10, 0⟩] [⟨(-2), (-4)⟩] = some ⟨Disk2.from2 ⟨(-2), (-4)⟩ ⟨10, 0⟩, 2, [⟨(-2), (-4)⟩, ⟨10, 0⟩]⟩ := (rec_out (by simp) h12 (h11.out hτ τ0 (by norm_num) (by norm_num [Spec.sqd2]))).trans h14
  have h16 : IsDisk (Disk2.from2 ⟨(-2), (-4)⟩ ⟨0, 4⟩ : Disk2 ℝ) ⟨(-1), 0⟩ 17 := isf2 (by norm_num) (by norm_num) (by norm_num)
  have h17 : rec2 τ [] [⟨(-2), (-4)⟩, ⟨0, 4⟩] = some ⟨Disk2.from2 ⟨(-2), (-4)⟩ ⟨0, 4⟩, 2, [⟨(-2), (-4)⟩, ⟨0, 4⟩]⟩ := rfl
  have h18 : IsDisk (Disk2.from2 ⟨10, 0⟩ ⟨0, 4⟩ : Disk2 ℝ) ⟨5, 2⟩ 29 := isf2 (by norm_num) (by norm_num) (by norm_num)
  have h19 : IsDisk (Disk2.from2 ⟨0, 4⟩ ⟨(-2), (-4)⟩ : Disk2 ℝ) ⟨(-1), 0⟩ 17 := isf2 (by norm_num) (by norm_num) (by norm_num)
  have h20 : IsDisk (Disk2.from3 ⟨10, 0⟩ ⟨0, 4⟩ ⟨(-2), (-4)⟩ : Disk2 ℝ) ⟨(41/11), (-(13/11))⟩ (4930/121) := isf3 (by norm_num) (by norm_num) (by norm_num) (by norm_num)
  have h21 : rec2 τ [] [⟨(-2), (-4)⟩, ⟨0, 4⟩, ⟨10, 0⟩] = some ⟨Disk2.from3 ⟨10, 0⟩ ⟨0, 4⟩ ⟨(-2), (-4)⟩, 3, [⟨10, 0⟩, ⟨0, 4⟩, ⟨(-2), (-4)⟩]⟩ := (three4 (h18.out hτ τ0 (by norm_num) (by norm_num [Spec.sqd2])) (h19.out hτ τ0 (by norm_num) (by norm_num [Spec.sqd2])) (h13.out hτ τ0 (by norm_num) (by norm_num [Spec.sqd2])))
  have h22 : rec2 τ [⟨10, 0⟩] [⟨(-2), (-4)⟩, ⟨0, 4⟩] = some ⟨Disk2.from3 ⟨10, 0⟩ ⟨0, 4⟩ ⟨(-2), (-4)⟩, 3, [⟨10, 0⟩, ⟨0, 4⟩, ⟨(-2), (-4)⟩]⟩ := (rec_out (by simp) h17 (h16.out hτ τ0 (by norm_num) (by norm_num [Spec.sqd2]))).trans h21
  have h23 : rec2 τ [⟨0, 4⟩, ⟨10, 0⟩] [⟨(-2), (-4)⟩] = some ⟨Disk2.from3 ⟨10, 0⟩ ⟨0, 4⟩ ⟨(-2), (-4)⟩, 3, [⟨10, 0⟩, ⟨0, 4⟩, ⟨(-2), (-4)⟩]⟩ := (rec_out (by simp) h15 (h13.out hτ τ0 (by norm_num) (by norm_num [Spec.sqd2]))).trans h22
  have h24 : rec2 τ [⟨(-2), (-4)⟩, ⟨0, 4⟩, ⟨10, 0⟩] [] = some ⟨Disk2.from3 ⟨10, 0⟩ ⟨0, 4⟩ ⟨(-2), (-4)⟩, 3, [⟨10, 0⟩, ⟨0, 4⟩, ⟨(-2), (-4)⟩]⟩ := (rec_out (by simp) h10 (h7.out hτ τ0 (by norm_num) (by norm_num [Spec.sqd2]))).trans h23
  have h25 : IsDisk (⟨⟨(-4), 2⟩, 0⟩ : Disk2 ℝ) ⟨(-4), 2⟩ 0 := ⟨rfl, by simp⟩
  have h26 : rec2 τ [] [⟨(-4), 2⟩] = some ⟨⟨⟨(-4), 2⟩, 0⟩, 1, [⟨(-4), 2⟩]⟩ := rfl
  have h27 : IsDisk (Disk2.from2 ⟨(-4), 2⟩ ⟨10, 0⟩ : Disk2 ℝ) ⟨3, 1⟩ 50 := isf2 (by norm_num) (by norm_num) (by norm_num)
  have h28 : rec2 τ [] [⟨(-4), 2⟩, ⟨10, 0⟩] = some ⟨Disk2.from2 ⟨(-4), 2⟩ ⟨10, 0⟩, 2, [⟨(-4), 2⟩, ⟨10, 0⟩]⟩ := rfl
  have h29 : rec2 τ [⟨10, 0⟩] [⟨(-4), 2⟩] = some ⟨Disk2.from2 ⟨(-4), 2⟩ ⟨10, 0⟩, 2, [⟨(-4), 2⟩, ⟨10, 0⟩]⟩ := (rec_out (by simp) h26 (h25.out hτ τ0 (by norm_num) (by norm_num [Spec.sqd2]))).trans h28
  have h30 : rec2 τ [⟨0, 4⟩, ⟨10, 0⟩] [⟨(-4), 2⟩] = some ⟨Disk2.from2 ⟨(-4), 2⟩ ⟨10, 0⟩, 2, [⟨(-4), 2⟩, ⟨10, 0⟩]⟩ := rec_in (by simp) h29 (h27.ins τ0 (by norm_num [Spec.sqd2]))
  have h31 : rec2 τ [⟨(-2), (-4)⟩, ⟨0, 4⟩, ⟨10, 0⟩] [⟨(-4), 2⟩] = some ⟨Disk2.from2 ⟨(-4), 2⟩ ⟨10, 0⟩, 2, [⟨(-4), 2⟩, ⟨10, 0⟩]⟩ := rec_in (by simp) h30 (h27.ins τ0 (by norm_num [Spec.sqd2]))
  have h32 : rec2 τ [⟨(-4), 2⟩, ⟨(-2), (-4)⟩, ⟨0, 4⟩, ⟨10, 0⟩] [] = some ⟨Disk2.from2 ⟨(-4), 2⟩ ⟨10, 0⟩, 2, [⟨(-4), 2⟩, ⟨10, 0⟩]⟩ := (rec_out (by simp) h24 (h20.out hτ τ0 (by norm_num) (by norm_num [Spec.sqd2]))).trans h31
  have h33 : IsDisk (⟨⟨0, (-6)⟩, 0⟩ : Disk2 ℝ) ⟨0, (-6)⟩ 0 := ⟨rfl, by simp⟩
  have h34 : rec2 τ [] [⟨0, (-6)⟩] = some ⟨⟨⟨0, (-6)⟩, 0⟩, 1, [⟨0, (-6)⟩]⟩ := rfl
  have h35 : IsDisk (Disk2.from2 ⟨0, (-6)⟩ ⟨10, 0⟩ : Disk2 ℝ) ⟨5, (-3)⟩ 34 := isf2 (by norm_num) (by norm_num) (by norm_num)
  have h36 : rec2 τ [] [⟨0, (-6)⟩, ⟨10, 0⟩] = some ⟨Disk2.from2 ⟨0, (-6)⟩ ⟨10, 0⟩, 2, [⟨0, (-6)⟩, ⟨10, 0⟩]⟩ := rfl
  have h37 : rec2 τ [⟨10, 0⟩] [⟨0, (-6)⟩] = some ⟨Disk2.from2 ⟨0, (-6)⟩ ⟨10, 0⟩, 2, [⟨0, (-6)⟩, ⟨10, 0⟩]⟩ := (rec_out (by simp) h34 (h33.out hτ τ0 (by norm_num) (by norm_num [Spec.sqd2]))).trans h36
  have h38 : IsDisk (Disk2.from2 ⟨0, (-6)⟩ ⟨0, 4⟩ : Disk2 ℝ) ⟨0, (-1)⟩ 25 := isf2 (by norm_num) (by norm_num) (by norm_num)
  have h39 : rec2 τ [] [⟨0, (-6)⟩, ⟨0, 4⟩] = some ⟨Disk2.from2 ⟨0, (-6)⟩ ⟨0, 4⟩, 2, [⟨0, (-6)⟩, ⟨0, 4⟩]⟩ := rfl
  have h40 : IsDisk (Disk2.from2 ⟨0, 4⟩ ⟨0, (-6)⟩ : Disk2 ℝ) ⟨0, (-1)⟩ 25 := isf2 (by norm_num) (by norm_num) (by norm_num)
  have h41 : IsDisk (Disk2.from3 ⟨10, 0⟩ ⟨0, 4⟩ ⟨0, (-6)⟩ : Disk2 ℝ) ⟨(19/5), (-1)⟩ (986/25) := isf3 (by norm_num) (by norm_num) (by norm_num) (by norm_num)
  have h42 : rec2 τ [] [⟨0, (-6)⟩, ⟨0, 4⟩, ⟨10, 0⟩] = some ⟨Disk2.from3 ⟨10, 0⟩ ⟨0, 4⟩ ⟨0, (-6)⟩, 3, [⟨10, 0⟩, ⟨0, 4⟩, ⟨0, (-6)⟩]⟩ := (three4 (h18.out hτ τ0 (by norm_num) (by norm_num [Spec.sqd2])) (h40.out hτ τ0 (by norm_num) (by norm_num [Spec.sqd2])) (h35.out hτ τ0 (by norm_num) (by norm_num [Spec.sqd2])))
  have h43 : rec2 τ [⟨10, 0⟩] [⟨0, (-6)⟩, ⟨0, 4⟩] = some ⟨Disk2.from3 ⟨10, 0⟩ ⟨0, 4⟩ ⟨0, (-6)⟩, 3, [⟨10, 0⟩, ⟨0, 4⟩, ⟨0, (-6)⟩]⟩ := (rec_out (by simp) h39 (h38.out hτ τ0 (by norm_num) (by norm_num [Spec.sqd2]))).trans h42
  have h44 : rec2 τ [⟨0, 4⟩, ⟨10, 0⟩] [⟨0, (-6)⟩] = some ⟨Disk2.from3 ⟨10, 0⟩ ⟨0, 4⟩ ⟨0, (-6)⟩, 3, [⟨10, 0⟩, ⟨0, 4⟩, ⟨0, (-6)⟩]⟩ := (rec_out (by simp) h37 (h35.out hτ τ0 (by norm_num) (by norm_num [Spec.sqd2]))).trans h43
  have h45 : IsDisk (Disk2.from2 ⟨0, (-6)⟩ ⟨(-2), (-4)⟩ : Disk2 ℝ) ⟨(-1), (-5)⟩ 2 := isf2 (by norm_num) (by norm_num) (by norm_num)
  have h46 : rec2 τ [] [⟨0, (-6)⟩, ⟨(-2), (-4)⟩] = some ⟨Disk2.from2 ⟨0, (-6)⟩ ⟨(-2), (-4)⟩, 2, [⟨0, (-6)⟩, ⟨(-2), (-4)⟩]⟩ := rfl
  have h47 : IsDisk (Disk2.from2 ⟨10, 0⟩ ⟨(-2), (-4)⟩ : Disk2 ℝ) ⟨4, (-2)⟩ 40 := isf2 (by norm_num) (by norm_num) (by norm_num)
  have h48 : rec2 τ [] [⟨0, (-6)⟩, ⟨(-2), (-4)⟩, ⟨10, 0⟩] = some ⟨Disk2.from2 ⟨10, 0⟩ ⟨(-2), (-4)⟩, 2, [⟨10, 0⟩, ⟨(-2), (-4)⟩]⟩ := (three1 (h47.ins τ0 (by norm_num [Spec.sqd2])))
  have h49 : rec2 τ [⟨10, 0⟩] [⟨0, (-6)⟩, ⟨(-2), (-4)⟩] = some ⟨Disk2.from2 ⟨10, 0⟩ ⟨(-2), (-4)⟩, 2, [⟨10, 0⟩, ⟨(-2), (-4)⟩]⟩ := (rec_out (by simp) h46 (h45.out hτ τ0 (by norm_num) (by norm_num [Spec.sqd2]))).trans h48
  have h50 : IsDisk (Disk2.from2 ⟨(-2), (-4)⟩ ⟨0, (-6)⟩ : Disk2 ℝ) ⟨(-1), (-5)⟩ 2 := isf2 (by norm_num) (by norm_num) (by norm_num)
  have h51 : rec2 τ [⟨10, 0⟩] [⟨0, (-6)⟩, ⟨(-2), (-4)⟩, ⟨0, 4⟩] = some ⟨Disk2.from2 ⟨0, (-6)⟩ ⟨0, 4⟩, 2, [⟨0, (-6)⟩, ⟨0, 4⟩]⟩ := ((rec_full rfl).trans (three3 (h19.out hτ τ0 (by norm_num) (by norm_num [Spec.sqd2])) (h50.out hτ τ0 (by norm_num) (by norm_num [Spec.sqd2])) (h38.ins τ0 (by norm_num [Spec.sqd2]))))
  have h52 : rec2 τ [⟨0, 4⟩, ⟨10, 0⟩] [⟨0, (-6)⟩, ⟨(-2), (-4)⟩] = some ⟨Disk2.from2 ⟨0, (-6)⟩ ⟨0, 4⟩, 2, [⟨0, (-6)⟩, ⟨0, 4⟩]⟩ := (rec_out (by simp) h49 (h47.out hτ τ0 (by norm_num) (by norm_num [Spec.sqd2]))).trans h51
  have h53 : rec2 τ [⟨(-2), (-4)⟩, ⟨0, 4⟩, ⟨10, 0⟩] [⟨0, (-6)⟩] = some ⟨Disk2.from2 ⟨0, (-6)⟩ ⟨0, 4⟩, 2, [⟨0, (-6)⟩, ⟨0, 4⟩]⟩ := (rec_out (by simp) h44 (h41.out hτ τ0 (by norm_num) (by norm_num [Spec.sqd2]))).trans h52
  have h54 : rec2 τ [⟨(-4), 2⟩, ⟨(-2), (-4)⟩, ⟨0, 4⟩, ⟨10, 0⟩] [⟨0, (-6)⟩] = some ⟨Disk2.from2 ⟨0, (-6)⟩ ⟨0, 4⟩, 2, [⟨0, (-6)⟩, ⟨0, 4⟩]⟩ := rec_in (by simp) h53 (h38.ins τ0 (by norm_num [Spec.sqd2]))
  have h55 : rec2 τ [⟨0, (-6)⟩, ⟨(-4), 2⟩, ⟨(-2), (-4)⟩, ⟨0, 4⟩, ⟨10, 0⟩] [] = some ⟨Disk2.from2 ⟨0, (-6)⟩ ⟨0, 4⟩, 2, [⟨0, (-6)⟩, ⟨0, 4⟩]⟩ := (rec_out (by simp) h32 (h27.out hτ τ0 (by norm_num) (by norm_num [Spec.sqd2]))).trans h54
  exact ⟨_, h55, rfl, h38⟩

/-- Three points. -/
theorem flat3 {τ : ℝ} (τ0 : 0 < τ) (hτ : τ ≤ 1/100) :
    ∃ b, rec2 τ [⟨(-10), 0⟩, ⟨10, 0⟩, ⟨0, 1⟩] [] = some b ∧ b.num = 2 ∧ IsDisk b.ball ⟨0, 0⟩ 100 := by
  have h1 : rec2 τ [] [] = some ⟨⟨.zero, -1⟩, 0, []⟩ := rfl
  have h2 : IsDisk (⟨⟨0, 1⟩, 0⟩ : Disk2 ℝ) ⟨0, 1⟩ 0 := ⟨rfl, by simp⟩
  have h3 : rec2 τ [] [⟨0, 1⟩] = some ⟨⟨⟨0, 1⟩, 0⟩, 1, [⟨0, 1⟩]⟩ := rfl
  have h4 : rec2 τ [⟨0, 1⟩] [] = some ⟨⟨⟨0, 1⟩, 0⟩, 1, [⟨0, 1⟩]⟩ := (rec_out (by simp) h1 (not_empty hτ)).trans h3
  have h5 : IsDisk (⟨⟨10, 0⟩, 0⟩ : Disk2 ℝ) ⟨10, 0⟩ 0 := ⟨rfl, by simp⟩
  have h6 : rec2 τ [] [⟨10, 0⟩] = some ⟨⟨⟨10, 0⟩, 0⟩, 1, [⟨10, 0⟩]⟩ := rfl
  have h7 : IsDisk (Disk2.from2 ⟨10, 0⟩ ⟨0, 1⟩ : Disk2 ℝ) ⟨5, (1/2)⟩ (101/4) := isf2 (by norm_num) (by norm_num) (by norm_num)
  have h8 : rec2 τ [] [⟨10, 0⟩, ⟨0, 1⟩] = some ⟨Disk2.from2 ⟨10, 0⟩ ⟨0, 1⟩, 2, [⟨10, 0⟩, ⟨0, 1⟩]⟩ := rfl
  have h9 : rec2 τ [⟨0, 1⟩] [⟨10, 0⟩] = some ⟨Disk2.from2 ⟨10, 0⟩ ⟨0, 1⟩, 2, [⟨10, 0⟩, ⟨0, 1⟩]⟩ := (rec_out (by simp) h6 (h5.out hτ τ0 (by norm_num) (by norm_num [Spec.sqd2]))).trans h8
  have h10 : rec2 τ [⟨10, 0⟩, ⟨0, 1⟩] [] = some ⟨Disk2.from2 ⟨10, 0⟩ ⟨0, 1⟩, 2, [⟨10, 0⟩, ⟨0, 1⟩]⟩ := (rec_out (by simp) h4 (h2.out hτ τ0 (by norm_num) (by norm_num [Spec.sqd2]))).trans h9
  have h11 : IsDisk (⟨⟨(-10), 0⟩, 0⟩ : Disk2 ℝ) ⟨(-10), 0⟩ 0 := ⟨rfl, by simp⟩
  have h12 : rec2 τ [] [⟨(-10), 0⟩] = some ⟨⟨⟨(-10), 0⟩, 0⟩, 1, [⟨(-10), 0⟩]⟩ := rfl
  have h13 : IsDisk (Disk2.from2 ⟨(-10), 0⟩ ⟨0, 1⟩ : Disk2 ℝ) ⟨(-5), (1/2)⟩ (101/4) := isf2 (by norm_num) (by norm_num) (by norm_num)
  have h14 : rec2 τ [] [⟨(-10), 0⟩, ⟨0, 1⟩] = some ⟨Disk2.from2 ⟨(-10), 0⟩ ⟨0, 1⟩, 2, [⟨(-10), 0⟩, ⟨0, 1⟩]⟩ := rfl
  have h15 : rec2 τ [⟨0, 1⟩] [⟨(-10), 0⟩] = some ⟨Disk2.from2 ⟨(-10), 0⟩ ⟨0, 1⟩, 2, [⟨(-10), 0⟩, ⟨0, 1⟩]⟩ := (rec_out (by simp) h12 (h11.out hτ τ0 (by norm_num) (by norm_num [Spec.sqd2]))).trans h14
  have h16 : IsDisk (Disk2.from2 ⟨(-10), 0⟩ ⟨10, 0⟩ : Disk2 ℝ) ⟨0, 0⟩ 100 := isf2 (by norm_num) (by norm_num) (by norm_num)
  have h17 : rec2 τ [] [⟨(-10), 0⟩, ⟨10, 0⟩] = some ⟨Disk2.from2 ⟨(-10), 0⟩ ⟨10, 0⟩, 2, [⟨(-10), 0⟩, ⟨10, 0⟩]⟩ := rfl
  have h18 : rec2 τ [⟨0, 1⟩] [⟨(-10), 0⟩, ⟨10, 0⟩] = some ⟨Disk2.from2 ⟨(-10), 0⟩ ⟨10, 0⟩, 2, [⟨(-10), 0⟩, ⟨10, 0⟩]⟩ := rec_in (by simp) h17 (h16.ins τ0 (by norm_num [Spec.sqd2]))
  have h19 : rec2 τ [⟨10, 0⟩, ⟨0, 1⟩] [⟨(-10), 0⟩] = some ⟨Disk2.from2 ⟨(-10), 0⟩ ⟨10, 0⟩, 2, [⟨(-10), 0⟩, ⟨10, 0⟩]⟩ := (rec_out (by simp) h15 (h13.out hτ τ0 (by norm_num) (by norm_num [Spec.sqd2]))).trans h18
  have h20 : rec2 τ [⟨(-10), 0⟩, ⟨10, 0⟩, ⟨0, 1⟩] [] = some ⟨Disk2.from2 ⟨(-10), 0⟩ ⟨10, 0⟩, 2, [⟨(-10), 0⟩, ⟨10, 0⟩]⟩ := (rec_out (by simp) h10 (h7.out hτ τ0 (by norm_num) (by norm_num [Spec.sqd2]))).trans h19
  exact ⟨_, h20, rfl, h16⟩

/-- Four points. -/
theorem kite4 {τ : ℝ} (τ0 : 0 < τ) (hτ : τ ≤ 1/100) :
    ∃ b, rec2 τ [⟨0, 5⟩, ⟨0, (-5)⟩, ⟨(-10), 0⟩, ⟨10, 0⟩] [] = some b ∧ b.num = 2 ∧ IsDisk b.ball ⟨0, 0⟩ 100 := by
  have h1 : rec2 τ [] [] = some ⟨⟨.zero, -1⟩, 0, []⟩ := rfl
  have h2 : IsDisk (⟨⟨10, 0⟩, 0⟩ : Disk2 ℝ) ⟨10, 0⟩ 0 := ⟨rfl, by simp⟩
  have h3 : rec2 τ [] [⟨10, 0⟩] = some ⟨⟨⟨10, 0⟩, 0⟩, 1, [⟨10, 0⟩]⟩ := rfl
  have h4 : rec2 τ [⟨10, 0⟩] [] = some ⟨⟨⟨10, 0⟩, 0⟩, 1, [⟨10, 0⟩]⟩ := (rec_out (by simp) h1 (not_empty hτ)).trans h3
  have h5 : IsDisk (⟨⟨(-10), 0⟩, 0⟩ : Disk2 ℝ) ⟨(-10), 0⟩ 0 := ⟨rfl, by simp⟩
  have h6 : rec2 τ [] [⟨(-10), 0⟩] = some ⟨⟨⟨(-10), 0⟩, 0⟩, 1, [⟨(-10), 0⟩]⟩ := rfl
  have h7 : IsDisk (Disk2.from2 ⟨(-10), 0⟩ ⟨10, 0⟩ : Disk2 ℝ) ⟨0, 0⟩ 100 := isf2 (by norm_num) (by norm_num) (by norm_num)
  have h8 : rec2 τ [] [⟨(-10), 0⟩, ⟨10, 0⟩] = some ⟨Disk2.from2 ⟨(-10), 0⟩ ⟨10, 0⟩, 2, [⟨(-10), 0⟩, ⟨10, 0⟩]⟩ := rfl
  have h9 : rec2 τ [⟨10, 0⟩] [⟨(-10), 0⟩] = some ⟨Disk2.from2 ⟨(-10), 0⟩ ⟨10, 0⟩, 2, [⟨(-10), 0⟩, ⟨10, 0⟩]⟩ := (rec_out (by simp) h6 (h5.out hτ τ0 (by norm_num) (by norm_num [Spec.sqd2]))).trans h8
  have h10 : rec2 τ [⟨(-10), 0⟩, ⟨10, 0⟩] [] = some ⟨Disk2.from2 ⟨(-10), 0⟩ ⟨10, 0⟩, 2, [⟨(-10), 0⟩, ⟨10, 0⟩]⟩ := (rec_out (by simp) h4 (h2.out hτ τ0 (by norm_num) (by norm_num [Spec.sqd2]))).trans h9
  have h11 : rec2 τ [⟨0, (-5)⟩, ⟨(-10), 0⟩, ⟨10, 0⟩] [] = some ⟨Disk2.from2 ⟨(-10), 0⟩ ⟨10, 0⟩, 2, [⟨(-10), 0⟩, ⟨10, 0⟩]⟩ := rec_in (by simp) h10 (h7.ins τ0 (by norm_num [Spec.sqd2]))
  have h12 : rec2 τ [⟨0, 5⟩, ⟨0, (-5)⟩, ⟨(-10), 0⟩, ⟨10, 0⟩] [] = some ⟨Disk2.from2 ⟨(-10), 0⟩ ⟨10, 0⟩, 2, [⟨(-10), 0⟩, ⟨10, 0⟩]⟩ := rec_in (by simp) h11 (h7.ins τ0 (by norm_num [Spec.sqd2]))
  exact ⟨_, h12, rfl, h7⟩

end Zeo.BallEval

import Verif.Model.ToPH
import Verif.Spec.ToPH
import Verif.Props.C41
import Verif.Props.C10
import Verif.Lemmas.Revolve
import Verif.Lemmas.Triangle

/-! # C91: conversion of shapes to polyhedra -/

namespace Zeo
open ZTK Gen
noncomputable section

/-! ## The solids are convex -/

private def Cvx (S : Set (Vec3 ℝ)) : Prop := ∀ p ∈ S, ∀ q ∈ S, ∀ a b : ℝ, 0 ≤ a → 0 ≤ b → a + b = 1 →
  (⟨a * p.x + b * q.x, a * p.y + b * q.y, a * p.z + b * q.z⟩ : Vec3 ℝ) ∈ S

private theorem Cvx.tri {S : Set (Vec3 ℝ)} (h : Cvx S) {u v w : Vec3 ℝ} (hu : u ∈ S) (hv : v ∈ S) (hw : w ∈ S) : Spec.triangle u v w ⊆ S := by
  rintro q ⟨a, b, c, ha, hb, hc, hs, rfl⟩
  rcases eq_or_lt_of_le (add_nonneg ha hb) with h0 | h0
  · have a0 : a = 0 := by linarith
    have b0 : b = 0 := by linarith
    have c1 : c = 1 := by linarith
    subst a0 b0 c1
    convert hw using 1
    ext <;> simp [Spec.comb]
  · have h1 := h u hu v hv (a / (a + b)) (b / (a + b)) (by positivity) (by positivity) (by field_simp)
    have h2 := h _ h1 w hw (a + b) c h0.le hc hs
    convert h2 using 1
    ext <;> simp only [Spec.comb] <;> field_simp <;> ring

private theorem ed_le {p q : Vec3 ℝ} {r : ℝ} : Spec.ed p q ≤ r ↔ 0 ≤ r ∧ Spec.sqd p q ≤ r ^ 2 := by
  rw [Spec.ed]
  constructor
  · intro h
    have h0 := (Real.sqrt_nonneg _).trans h
    exact ⟨h0, (Real.sqrt_le_left h0).1 h⟩
  · rintro ⟨h0, h⟩; exact (Real.sqrt_le_left h0).2 h

private theorem sq_mix {a b : ℝ} (ha : 0 ≤ a) (hb : 0 ≤ b) (hab : a + b = 1) {x y z x' y' z' r r' : ℝ} (hr : 0 ≤ r) (hr' : 0 ≤ r')
    (h : x ^ 2 + y ^ 2 + z ^ 2 ≤ r ^ 2) (h' : x' ^ 2 + y' ^ 2 + z' ^ 2 ≤ r' ^ 2) :
    (a * x + b * x') ^ 2 + (a * y + b * y') ^ 2 + (a * z + b * z') ^ 2 ≤ (a * r + b * r') ^ 2 := by
  have hcs : x * x' + y * y' + z * z' ≤ r * r' := by
    refine abs_le_of_sq_le_sq' ?_ (by positivity) |>.2
    have h1 : (x * x' + y * y' + z * z') ^ 2 ≤ (x ^ 2 + y ^ 2 + z ^ 2) * (x' ^ 2 + y' ^ 2 + z' ^ 2) := by
      nlinarith [sq_nonneg (x * y' - y * x'), sq_nonneg (x * z' - z * x'), sq_nonneg (y * z' - z * y')]
    have h2 : (x ^ 2 + y ^ 2 + z ^ 2) * (x' ^ 2 + y' ^ 2 + z' ^ 2) ≤ r ^ 2 * r' ^ 2 := mul_le_mul h h' (by positivity) (by positivity)
    nlinarith
  nlinarith [mul_nonneg ha hb, mul_le_mul_of_nonneg_left hcs (mul_nonneg ha hb), mul_le_mul_of_nonneg_left h (mul_nonneg ha ha),
    mul_le_mul_of_nonneg_left h' (mul_nonneg hb hb)]

private theorem abs_mix {a b s s' k : ℝ} (ha : 0 ≤ a) (hb : 0 ≤ b) (hab : a + b = 1) (h : 2 * |s| ≤ k) (h' : 2 * |s'| ≤ k) :
    2 * |a * s + b * s'| ≤ k := by
  have h1 := abs_add_le (a * s) (b * s')
  rw [abs_mul, abs_mul, abs_of_nonneg ha, abs_of_nonneg hb] at h1
  have h2 := mul_le_mul_of_nonneg_left h ha
  have h3 := mul_le_mul_of_nonneg_left h' hb
  have h4 : a * k + b * k = k := by rw [← add_mul, hab, one_mul]
  linarith

private theorem seg_mix {c0 c1 m m' : Vec3 ℝ} (hm : m ∈ Spec.segment c0 c1) (hm' : m' ∈ Spec.segment c0 c1) {a b : ℝ} (ha : 0 ≤ a)
    (hb : 0 ≤ b) (hab : a + b = 1) : (⟨a * m.x + b * m'.x, a * m.y + b * m'.y, a * m.z + b * m'.z⟩ : Vec3 ℝ) ∈ Spec.segment c0 c1 := by
  obtain ⟨s, t, hs, ht, hst, rfl⟩ := hm
  obtain ⟨s', t', hs', ht', hst', rfl⟩ := hm'
  refine ⟨a * s + b * s', a * t + b * t', by positivity, by positivity, by linear_combination a * hst + b * hst' + hab, ?_⟩
  ext <;> simp only [Spec.comb] <;> ring

private theorem solid_cvx (b : Body) (hp : ∀ q, b ≠ .ph q) : Cvx (Spec.solid b) := by
  intro p h q h' x y hx hy hxy
  cases b with
  | ph q => exact absurd rfl (hp q)
  | box b =>
    obtain ⟨s, t, u, h1, h2, h3, rfl⟩ := h
    obtain ⟨s', t', u', h1', h2', h3', rfl⟩ := h'
    refine ⟨x * s + y * s', x * t + y * t', x * u + y * u', abs_mix hx hy hxy h1 h1', abs_mix hx hy hxy h2 h2', abs_mix hx hy hxy h3 h3', ?_⟩
    ext <;> simp only [Spec.oboxPoint]
    · linear_combination b.frame.pos.x * hxy
    · linear_combination b.frame.pos.y * hxy
    · linear_combination b.frame.pos.z * hxy
  | sphere s =>
    obtain ⟨h0, h⟩ := ed_le.1 h
    obtain ⟨-, h'⟩ := ed_le.1 h'
    refine ed_le.2 ⟨h0, ?_⟩
    simp only [Spec.sqd] at h h' ⊢
    have := sq_mix hx hy hxy h0 h0 h h'
    rw [show x * s.body.radius + y * s.body.radius = s.body.radius by rw [← add_mul, hxy, one_mul]] at this
    refine le_trans (le_of_eq ?_) this
    rw [show y = 1 - x by linarith]; ring
  | ellips e =>
    obtain ⟨X, Y, Z, h, e1, e2, e3⟩ := h
    obtain ⟨X', Y', Z', h', e1', e2', e3'⟩ := h'
    refine ⟨x * X + y * X', x * Y + y * Y', x * Z + y * Z', ?_, ?_, ?_, ?_⟩
    · have := sq_mix hx hy hxy zero_le_one zero_le_one (h.trans_eq (one_pow 2).symm) (h'.trans_eq (one_pow 2).symm)
      rw [mul_one, mul_one, hxy, one_pow] at this
      refine le_trans (le_of_eq ?_) this
      simp only [add_div, mul_div_assoc]
    · simp only [e1, e1']; linear_combination e.body.f.pos.x * hxy
    · simp only [e2, e2']; linear_combination e.body.f.pos.y * hxy
    · simp only [e3, e3']; linear_combination e.body.f.pos.z * hxy
  | cyl c =>
    obtain ⟨m, hm, hpp, h⟩ := h
    obtain ⟨m', hm', hpp', h'⟩ := h'
    obtain ⟨h0, h⟩ := ed_le.1 h
    obtain ⟨-, h'⟩ := ed_le.1 h'
    refine ⟨_, seg_mix hm hm' hx hy hxy, ?_, ed_le.2 ⟨h0, ?_⟩⟩
    · simp only [Spec.Perp] at *; linear_combination x * hpp + y * hpp'
    · simp only [Spec.sqd] at h h' ⊢
      have := sq_mix hx hy hxy h0 h0 h h'
      rw [show x * c.body.radius + y * c.body.radius = c.body.radius by rw [← add_mul, hxy, one_mul]] at this
      refine le_trans (le_of_eq ?_) this
      ring
  | ecyl c =>
    obtain ⟨m, hm, s, t, h, e1, e2, e3⟩ := h
    obtain ⟨m', hm', s', t', h', e1', e2', e3'⟩ := h'
    refine ⟨_, seg_mix hm hm' hx hy hxy, x * s + y * s', x * t + y * t', ?_, ?_, ?_, ?_⟩
    · have := sq_mix (z := 0) (z' := 0) hx hy hxy zero_le_one zero_le_one (x := s / c.body.r0) (y := t / c.body.r1) (x' := s' / c.body.r0) (y' := t' / c.body.r1)
        (by linarith) (by linarith)
      rw [mul_one, mul_one, hxy, one_pow] at this
      refine le_trans (le_of_eq ?_) this
      simp only [add_div, mul_div_assoc]; ring
    · simp only [e1, e1']; ring
    · simp only [e2, e2']; ring
    · simp only [e3, e3']; ring
  | capsule c =>
    obtain ⟨m, hm, h⟩ := h
    obtain ⟨m', hm', h'⟩ := h'
    obtain ⟨h0, h⟩ := ed_le.1 h
    obtain ⟨-, h'⟩ := ed_le.1 h'
    refine ⟨_, seg_mix hm hm' hx hy hxy, ed_le.2 ⟨h0, ?_⟩⟩
    simp only [Spec.sqd] at h h' ⊢
    have := sq_mix hx hy hxy h0 h0 h h'
    rw [show x * c.body.radius + y * c.body.radius = c.body.radius by rw [← add_mul, hxy, one_mul]] at this
    refine le_trans (le_of_eq ?_) this
    ring
  | cone c =>
    obtain ⟨s, t, hs, ht, hst, hpp, h⟩ := h
    obtain ⟨s', t', hs', ht', hst', hpp', h'⟩ := h'
    obtain ⟨h0, h⟩ := ed_le.1 h
    obtain ⟨h0', h'⟩ := ed_le.1 h'
    refine ⟨x * s + y * s', x * t + y * t', by positivity, by positivity, by linear_combination x * hst + y * hst' + hxy, ?_, ed_le.2 ⟨?_, ?_⟩⟩
    · simp only [Spec.Perp, Spec.comb] at *; linear_combination x * hpp + y * hpp'
    · have : (x * s + y * s') * c.body.radius = x * (s * c.body.radius) + y * (s' * c.body.radius) := by ring
      rw [this]; positivity
    · have := sq_mix hx hy hxy h0 h0' h h'
      have e : (x * s + y * s') * c.body.radius = x * (s * c.body.radius) + y * (s' * c.body.radius) := by ring
      rw [e]
      refine le_trans (le_of_eq ?_) this
      simp only [Spec.comb, Spec.sqd]
      ring

/-! ## The frame belongs to the solid -/

private theorem frame_sub {τ : ℝ} (b : Body) (hb : Spec.ProperBody τ b) : Spec.frame b ⊆ Spec.solid b := by
  intro p h
  cases b with
  | ph q => exact absurd h (by simp [Spec.frame])
  | box b => obtain ⟨s, t, u, h1, h2, h3, e⟩ := h; exact ⟨s, t, u, h1.le, h2.le, h3.le, e⟩
  | sphere s => exact le_of_eq h
  | ellips e => obtain ⟨X, Y, Z, h, e1, e2, e3⟩ := h; exact ⟨X, Y, Z, h.le, e1, e2, e3⟩
  | cyl c =>
    obtain ⟨m, hm, hpp, h⟩ := h
    refine ⟨m, ?_, hpp, h.le⟩
    rcases hm with rfl | rfl
    · exact ⟨1, 0, by norm_num, by norm_num, by norm_num, by ext <;> simp [Spec.comb]⟩
    · exact ⟨0, 1, by norm_num, by norm_num, by norm_num, by ext <;> simp [Spec.comb]⟩
  | ecyl c =>
    obtain ⟨m, hm, s, t, h, e1, e2, e3⟩ := h
    refine ⟨m, ?_, s, t, h.le, e1, e2, e3⟩
    rcases hm with rfl | rfl
    · exact ⟨1, 0, by norm_num, by norm_num, by norm_num, by ext <;> simp [Spec.comb]⟩
    · exact ⟨0, 1, by norm_num, by norm_num, by norm_num, by ext <;> simp [Spec.comb]⟩
  | capsule c =>
    rcases h with ⟨h, -⟩ | ⟨h, -⟩
    · exact ⟨_, ⟨0, 1, by norm_num, by norm_num, by norm_num, by ext <;> simp [Spec.comb]⟩, h.le⟩
    · exact ⟨_, ⟨1, 0, by norm_num, by norm_num, by norm_num, by ext <;> simp [Spec.comb]⟩, h.le⟩
  | cone c =>
    rcases h with rfl | ⟨hpp, h⟩
    · refine ⟨0, 1, by norm_num, by norm_num, by norm_num, ?_, ?_⟩
      · simp [Spec.Perp, Spec.comb]
      · simp [Spec.comb, Spec.ed, Spec.sqd]
    · have e : Spec.comb 1 0 0 0 c.body.center c.body.vert c.body.center c.body.center = c.body.center := by ext <;> simp [Spec.comb]
      refine ⟨1, 0, by norm_num, by norm_num, by norm_num, ?_, ?_⟩ <;> rw [e]
      · exact hpp
      · rw [one_mul]; exact h.le

/-! ## The vertices -/

/-- Turning about the axis keeps the component along it and the length. -/
private theorem rim_spec {τ : ℝ} (hτ : 0 ≤ τ) (hτ' : τ ≤ 1/4) (u s : Vec3 ℝ) (div i : ℕ) :
    ∃ r, rim τ u s div i = some r ∧ r.inner u = s.inner u ∧ r.sqrNorm = s.sqrNorm := by
  have h3 : Real.sqrt 3 * τ < 1 := by
    have : Real.sqrt 3 ≤ 2 := Real.sqrt_le_iff.2 ⟨by norm_num, by norm_num⟩
    nlinarith
  refine ⟨_, by rw [rim, C10_vec3Rot τ hτ h3], ?_, ?_⟩
  · generalize 2 * Real.pi * (i : ℝ) / div = θ
    by_cases ht : (u.mul θ).isTol τ
    · rw [Mat3.fromAA, if_pos ht]; simp only [zeo]; ring
    · have hp := Vec3.norm_pos_of_not_isTol hτ ht
      have hsq := Vec3.norm_sq (u.mul θ)
      have hθ : θ ≠ 0 := by
        rintro rfl
        exact ht (by simp [Vec3.isTol, zIsTol, Vec3.mul, hτ])
      rw [Mat3.fromAA, if_neg ht]
      simp only []
      set l := (u.mul θ).norm
      generalize Real.sin l = sn
      generalize Real.cos l = c
      have hl := hp.ne'
      simp only [zeo]
      field_simp
      ring
  · have hr := C08_fromAA τ hτ (u.mul (2 * Real.pi * i / div))
    obtain ⟨c1, c2, c3, c4, c5, c6⟩ := hr.cols
    generalize Mat3.fromAA τ (u.mul (2 * Real.pi * i / div)) = m at *
    simp only [zeo] at *
    linear_combination s.x ^ 2 * c1 + s.y ^ 2 * c2 + s.z ^ 2 * c3 + 2 * s.x * s.y * c4 + 2 * s.y * s.z * c5 + 2 * s.x * s.z * c6

private theorem gen_frame' {τ : ℝ} (hτ : 0 ≤ τ) (hτ' : τ ≤ 1/4) {d : Vec3 ℝ} (hd : ¬ d.isTol τ) (r : ℝ) :
    let u := (Vec3.normalize τ d d).2
    let s := (Vec3.orthonormal τ u).2.mul r
    u.sqrNorm = 1 ∧ d = u.mul d.norm ∧ s.inner u = 0 ∧ s.sqrNorm = r ^ 2 := by
  intro u s
  obtain ⟨-, hL, hu, he⟩ := axis_normalize hτ (old := d) hd
  have hu1 : u.sqrNorm = 1 := by
    have : u.inner u = 1 := hu
    rw [← this]; simp only [zeo]
  obtain ⟨t1, ht, hn, ho⟩ := orthoSpace_unit hτ hτ' hu1
  have e : (Vec3.orthonormal τ u).2 = t1 := by
    unfold Vec3.orthoSpace at ht
    dsimp only at ht
    split at ht
    · cases ht
    · simp only [Option.some.injEq, Prod.mk.injEq] at ht; exact ht.1
  refine ⟨hu1, ?_, ?_, ?_⟩
  · rw [hL] at he; exact he
  · show (Vec3.mul (Vec3.orthonormal τ u).2 r).inner u = 0
    rw [e]; simp only [zeo] at ho ⊢; linear_combination r * ho
  · show (Vec3.mul (Vec3.orthonormal τ u).2 r).sqrNorm = r ^ 2
    rw [e]; simp only [zeo] at hn ⊢; linear_combination r ^ 2 * hn

private theorem ed_eq {p q : Vec3 ℝ} {r : ℝ} (hr : 0 ≤ r) (h : Spec.sqd p q = r ^ 2) : Spec.ed p q = r := by
  rw [Spec.ed, h, Real.sqrt_sq hr]

private theorem box_frame (b : Box3 ℝ) (hx : 0 < b.span.x) (hy : 0 < b.span.y) (hz : 0 < b.span.z) (n : ℕ) :
    b.vert n ∈ Spec.frame (.box b) := by
  have key : ∀ (c : Bool) (k : ℝ), 0 < k → 2 * |if c = true then -(1/2) * k else 1/2 * k| = k := by
    intro c k hk
    split_ifs
    · rw [abs_of_neg (by linarith)]; ring
    · rw [abs_of_pos (by linarith)]; ring
  refine ⟨_, _, _, key ((n.testBit 0).xor (n.testBit 1)) _ hx, key (n.testBit 1) _ hy, key (n.testBit 2) _ hz, ?_⟩
  unfold Box3.vert
  ext <;> simp only [zeo, Spec.oboxPoint] <;> ring

private theorem sphere_frame (s : WithDiv (Sphere3 ℝ)) (hr : 0 < s.body.radius) (div n : ℕ) :
    sphereVert s.body div n ∈ Spec.frame (.sphere s) := by
  refine ed_eq hr.le ?_
  unfold sphereVert
  split_ifs
  · simp only [Spec.sqd]; ring
  · simp only [Spec.sqd]; ring
  · simp only []
    generalize Real.pi * ((n - 1) / div + 1 : ℕ) / div = a
    generalize 2 * Real.pi * ((n - 1) % div : ℕ) / div = t
    have h1 := Real.sin_sq_add_cos_sq a
    have h2 := Real.sin_sq_add_cos_sq t
    simp only [Spec.sqd, zeo]
    linear_combination s.body.radius ^ 2 * h1 + s.body.radius ^ 2 * Real.sin a ^ 2 * h2

private theorem ellips_frame (e : WithDiv (Ellips ℝ)) (hx : 0 < e.body.radius.x) (hy : 0 < e.body.radius.y) (hz : 0 < e.body.radius.z)
    (div n : ℕ) : ellipsVert e.body div n ∈ Spec.frame (.ellips e) := by
  unfold ellipsVert
  split_ifs
  · refine ⟨0, 0, e.body.radius.z, ?_, ?_, ?_, ?_⟩
    · field_simp; norm_num
    all_goals simp only [zeo]; ring
  · refine ⟨0, 0, -e.body.radius.z, ?_, ?_, ?_, ?_⟩
    · field_simp; norm_num
    all_goals simp only [zeo]; ring
  · simp only []
    generalize Real.pi * ((n - 1) / div + 1 : ℕ) / div = a
    generalize 2 * Real.pi * ((n - 1) % div : ℕ) / div = t
    have h1 := Real.sin_sq_add_cos_sq a
    have h2 := Real.sin_sq_add_cos_sq t
    refine ⟨Real.sin a * Real.cos t * e.body.radius.x, Real.sin a * Real.sin t * e.body.radius.y, Real.cos a * e.body.radius.z, ?_, ?_, ?_, ?_⟩
    · rw [mul_div_cancel_right₀ _ hx.ne', mul_div_cancel_right₀ _ hy.ne', mul_div_cancel_right₀ _ hz.ne']
      linear_combination h1 + Real.sin a ^ 2 * h2
    all_goals simp only [zeo]; ring

private theorem ecyl_frame' (c : WithDiv (ECyl ℝ)) (h0 : 0 < c.body.r0) (h1 : 0 < c.body.r1) (div n : ℕ) :
    ecylVert c.body div n ∈ Spec.frame (.ecyl c) := by
  unfold ecylVert
  simp only []
  generalize 2 * Real.pi * ((if n < div then n else n - div : ℕ) : ℝ) / div = t
  have h2 := Real.sin_sq_add_cos_sq t
  split_ifs
  · refine ⟨_, Or.inl rfl, c.body.r0 * Real.cos t, c.body.r1 * Real.sin t, ?_, ?_, ?_, ?_⟩
    · rw [mul_div_cancel_left₀ _ h0.ne', mul_div_cancel_left₀ _ h1.ne']; linarith
    all_goals simp only [zeo]; ring
  · refine ⟨_, Or.inr rfl, c.body.r0 * Real.cos t, c.body.r1 * Real.sin t, ?_, ?_, ?_, ?_⟩
    · rw [mul_div_cancel_left₀ _ h0.ne', mul_div_cancel_left₀ _ h1.ne']; linarith
    all_goals simp only [zeo]; ring

private theorem cyl_frame {τ : ℝ} (hτ : 0 ≤ τ) (hτ' : τ ≤ 1/4) (c : WithDiv (Cyl ℝ)) (hr : 0 < c.body.radius)
    (hd : ¬ (c.body.c1.sub c.body.c0).isTol τ) (div n : ℕ) : ∃ v, cylVert τ c.body div n = some v ∧ v ∈ Spec.frame (.cyl c) := by
  obtain ⟨hu, hL, hs, hr2⟩ := gen_frame' hτ hτ' hd c.body.radius
  unfold cylVert
  simp only []
  set d := c.body.c1.sub c.body.c0 with hdd
  set u := (Vec3.normalize τ d d).2
  set s := (Vec3.orthonormal τ u).2.mul c.body.radius
  obtain ⟨r, h1, h2, h3⟩ := rim_spec hτ hτ' u s div (if n < div then n else n - div)
  rw [h1, Option.map_some]
  refine ⟨_, rfl, ?_⟩
  have hp : r.inner d = 0 := by rw [hL]; rw [hs] at h2; simp only [zeo] at h2 ⊢; linear_combination d.norm * h2
  have hq : r.sqrNorm = c.body.radius ^ 2 := h3.trans hr2
  rw [hdd] at hp
  split_ifs
  · refine ⟨_, Or.inl rfl, ?_, ed_eq hr.le ?_⟩
    · simp only [Spec.Perp, zeo] at hp ⊢; linear_combination hp
    · simp only [Spec.sqd, zeo] at hq ⊢; linear_combination hq
  · refine ⟨_, Or.inr rfl, ?_, ed_eq hr.le ?_⟩
    · simp only [Spec.Perp, zeo] at hp ⊢; linear_combination hp
    · simp only [Spec.sqd, zeo] at hq ⊢; linear_combination hq

private theorem cone_frame {τ : ℝ} (hτ : 0 ≤ τ) (hτ' : τ ≤ 1/4) (c : WithDiv (Cone ℝ)) (hr : 0 < c.body.radius)
    (hd : ¬ (c.body.vert.sub c.body.center).isTol τ) (div n : ℕ) : ∃ v, coneVert τ c.body div n = some v ∧ v ∈ Spec.frame (.cone c) := by
  obtain ⟨hu, hL, hs, hr2⟩ := gen_frame' hτ hτ' hd c.body.radius
  unfold coneVert
  simp only []
  set d := c.body.vert.sub c.body.center with hdd
  set u := (Vec3.normalize τ d d).2
  set s := (Vec3.orthonormal τ u).2.mul c.body.radius
  split_ifs
  · exact ⟨_, rfl, Or.inl rfl⟩
  obtain ⟨r, h1, h2, h3⟩ := rim_spec hτ hτ' u s div (n - 1)
  rw [h1, Option.map_some]
  refine ⟨_, rfl, ?_⟩
  have hp : r.inner d = 0 := by rw [hL]; rw [hs] at h2; simp only [zeo] at h2 ⊢; linear_combination d.norm * h2
  have hq : r.sqrNorm = c.body.radius ^ 2 := h3.trans hr2
  rw [hdd] at hp
  refine Or.inr ⟨?_, ed_eq hr.le ?_⟩
  · simp only [Spec.Perp, zeo] at hp ⊢; linear_combination hp
  · simp only [Spec.sqd, zeo] at hq ⊢; linear_combination hq

private theorem quarter {k m : ℕ} (h : k ≤ m) : 0 ≤ Real.cos (Real.pi / 2 * k / m) := by
  have hp := Real.pi_pos
  apply Real.cos_nonneg_of_mem_Icc
  constructor
  · have : 0 ≤ Real.pi / 2 * k / m := by positivity
    linarith
  · rcases Nat.eq_zero_or_pos m with rfl | hm
    · simp; linarith
    · rw [div_le_iff₀ (by exact_mod_cast hm)]
      have : (k : ℝ) ≤ m := by exact_mod_cast h
      nlinarith

private theorem capsule_frame {τ : ℝ} (hτ : 0 ≤ τ) (hτ' : τ ≤ 1/4) (c : WithDiv (Cyl ℝ)) (hr : 0 < c.body.radius)
    (hd : ¬ (c.body.c1.sub c.body.c0).isTol τ) (div n : ℕ) (hdv : 0 < div) : ∃ v, capsuleVert τ c.body div n = some v ∧ v ∈ Spec.frame (.capsule c) := by
  obtain ⟨hu, hL, hs, hr2⟩ := gen_frame' hτ hτ' hd c.body.radius
  have hn := Vec3.norm_pos_of_not_isTol hτ hd
  unfold capsuleVert
  simp only []
  set d := c.body.c1.sub c.body.c0 with hdd
  set u := (Vec3.normalize τ d d).2
  set s := (Vec3.orthonormal τ u).2.mul c.body.radius
  have key : ∀ k : ℝ, 0 ≤ k → ∀ r : Vec3 ℝ, r.inner u = k → 0 ≤ Spec.dot r d := by
    intro k hk r h
    rw [hL]
    have : Spec.dot r (u.mul d.norm) = d.norm * k := by rw [← h]; simp only [Spec.dot, zeo]; ring
    rw [this]; positivity
  have key' : ∀ k : ℝ, k ≤ 0 → ∀ r : Vec3 ℝ, r.inner u = k → Spec.dot r d ≤ 0 := by
    intro k hk r h
    rw [hL]
    have : Spec.dot r (u.mul d.norm) = d.norm * k := by rw [← h]; simp only [Spec.dot, zeo]; ring
    rw [this]; exact mul_nonpos_of_nonneg_of_nonpos hn.le hk
  have top : ∀ r : Vec3 ℝ, 0 ≤ r.inner u → r.sqrNorm = c.body.radius ^ 2 → r.add c.body.c1 ∈ Spec.frame (.capsule c) := by
    intro r h1 h2
    refine Or.inl ⟨ed_eq hr.le ?_, ?_⟩
    · simp only [Spec.sqd, zeo] at h2 ⊢; linear_combination h2
    · have := key _ h1 r rfl
      simp only [Spec.dot, hdd, zeo] at this ⊢; linarith
  have bot : ∀ r : Vec3 ℝ, r.inner u ≤ 0 → r.sqrNorm = c.body.radius ^ 2 → r.add c.body.c0 ∈ Spec.frame (.capsule c) := by
    intro r h1 h2
    refine Or.inr ⟨ed_eq hr.le ?_, ?_⟩
    · simp only [Spec.sqd, zeo] at h2 ⊢; linear_combination h2
    · have := key' _ h1 r rfl
      simp only [Spec.dot, hdd, zeo] at this ⊢; linarith
  split_ifs with g1 g2 g3
  · refine ⟨_, rfl, ?_⟩
    have := top (u.mul c.body.radius) (by simp only [zeo] at hu ⊢; nlinarith) (by simp only [zeo] at hu ⊢; linear_combination c.body.radius ^ 2 * hu)
    convert this using 1
    ext <;> simp only [zeo] <;> ring
  · have hk : (n - 1) / div + 1 ≤ div / 4 := by
      have : (n - 1) / div < div / 4 := (Nat.div_lt_iff_lt_mul hdv).2 (by omega)
      omega
    have hc := quarter hk
    generalize Real.pi / 2 * ((n - 1) / div + 1 : ℕ) / (div / 4 : ℕ) = a at hc
    have h1 := Real.sin_sq_add_cos_sq a
    obtain ⟨r, e1, e2, e3⟩ := rim_spec hτ hτ' u (((u.mul c.body.radius).mul (Real.cos a)).cat (Real.sin a) s) div ((n - 1) % div)
    rw [e1, Option.map_some]
    refine ⟨_, rfl, top r ?_ ?_⟩
    · have : r.inner u = c.body.radius * Real.cos a := by
        rw [e2]; simp only [zeo] at hu hs ⊢; linear_combination c.body.radius * Real.cos a * hu + Real.sin a * hs
      rw [this]; positivity
    · rw [e3]; simp only [zeo] at hu hs hr2 ⊢
      linear_combination c.body.radius ^ 2 * Real.cos a ^ 2 * hu + 2 * c.body.radius * Real.cos a * Real.sin a * hs + Real.sin a ^ 2 * hr2 + c.body.radius ^ 2 * h1
  · have hc := quarter (Nat.sub_le (div / 4) ((n - 1 - div / 4 * div) / div))
    generalize Real.pi / 2 * (div / 4 - (n - 1 - div / 4 * div) / div : ℕ) / (div / 4 : ℕ) = a at hc
    have h1 := Real.sin_sq_add_cos_sq a
    obtain ⟨r, e1, e2, e3⟩ := rim_spec hτ hτ' u (((u.mul c.body.radius).rev.mul (Real.cos a)).cat (Real.sin a) s) div ((n - 1 - div / 4 * div) % div)
    rw [e1, Option.map_some]
    refine ⟨_, rfl, bot r ?_ ?_⟩
    · have : r.inner u = -(c.body.radius * Real.cos a) := by
        rw [e2]; simp only [zeo] at hu hs ⊢; linear_combination -c.body.radius * Real.cos a * hu + Real.sin a * hs
      rw [this]; have := mul_nonneg hr.le hc; linarith
    · rw [e3]; simp only [zeo] at hu hs hr2 ⊢
      linear_combination c.body.radius ^ 2 * Real.cos a ^ 2 * hu - 2 * c.body.radius * Real.cos a * Real.sin a * hs + Real.sin a ^ 2 * hr2 + c.body.radius ^ 2 * h1
  · refine ⟨_, rfl, ?_⟩
    have := bot (u.mul c.body.radius).rev (by simp only [zeo] at hu ⊢; nlinarith) (by simp only [zeo] at hu ⊢; linear_combination c.body.radius ^ 2 * hu)
    convert this using 1
    ext <;> simp only [zeo] <;> ring

private theorem not_tol' {τ : ℝ} (hτ : 0 ≤ τ) {u v : Vec3 ℝ} (h : 4 * τ < Spec.ed u v) : ¬ (v.sub u).isTol τ := by
  intro ht
  have h3 : |v.x - u.x| ≤ τ ∧ |v.y - u.y| ≤ τ ∧ |v.z - u.z| ≤ τ := by
    simpa [Vec3.isTol, zIsTol, Vec3.sub, and_assoc] using ht
  have hx := sq_le_sq' (by linarith [abs_nonneg (v.x - u.x)]) h3.1
  have hy := sq_le_sq' (by linarith [abs_nonneg (v.y - u.y)]) h3.2.1
  have hz := sq_le_sq' (by linarith [abs_nonneg (v.z - u.z)]) h3.2.2
  rw [sq_abs] at hx hy hz
  have : Spec.ed u v ≤ 4 * τ := by
    rw [Spec.ed, Real.sqrt_le_left (by linarith)]
    simp only [Spec.sqd]; nlinarith
  linarith

private theorem setPH_ok {τ : ℝ} {m : Mesh} {vert : ℕ → Option (Vec3 ℝ)} {F : Set (Vec3 ℝ)} (h : ∀ n, ∃ v, vert n = some v ∧ v ∈ F) :
    setPH τ m vert = .ok (toPH τ m fun n => (vert n).getD .zero) ∧ ∀ n, (vert n).getD .zero ∈ F := by
  constructor
  · rw [setPH, if_pos]
    rw [List.all_eq_true]
    intro n _
    obtain ⟨v, hv, -⟩ := h n
    rw [hv]; rfl
  · intro n
    obtain ⟨v, hv, hF⟩ := h n
    rw [hv]; exact hF

private theorem capsule_filled {div : ℕ} (h2 : 2 ≤ div) (h4 : div % 4 = 0) : Spec.Filled (capsule div) := by
  obtain ⟨m, rfl⟩ : ∃ m, div = 4 * m := ⟨div / 4, by omega⟩
  exact (C41_capsule m (by omega)).2.1

private theorem norm_nonneg (τ : ℝ) (v : Vec3 ℝ) : ¬ (v.normalize τ v).1 < 0 := by
  rw [Vec3.normalize]
  split_ifs
  · exact lt_irrefl _
  · simp only [Vec3.normalizeNC, not_lt]
    exact Real.sqrt_nonneg _

/-- The mesh and the vertices of a successful conversion. -/
private theorem toPH_form {τ : ℝ} (hτ : 0 ≤ τ) (hτ' : τ ≤ 1/4) (b : Body) (hb : Spec.ProperBody τ b) (hp : ∀ q, b ≠ .ph q)
    (hd : Spec.GoodDiv b) : ∃ m vert, b.toPH τ = .ok (Gen.toPH τ m vert) ∧ Spec.Filled m ∧ (m.nv, m.nf) = Spec.meshSize b ∧
      ∀ n, vert n ∈ Spec.frame b := by
  cases b with
  | ph q => exact absurd rfl (hp q)
  | box b => exact ⟨_, _, rfl, C41_box.2, rfl, box_frame b hb.2.1 hb.2.2.1 hb.2.2.2⟩
  | sphere s =>
    have hd : 2 ≤ s.div := hd
    have h2 : 2 ≤ s.div.toNat := by omega
    refine ⟨_, _, ?_, C41_sphere_filled _ h2, ?_, sphere_frame s hb s.div.toNat⟩
    · rw [Body.toPH, if_neg (by omega)]; rfl
    · rfl
  | ellips e =>
    have hd : 2 ≤ e.div := hd
    have h2 : 2 ≤ e.div.toNat := by omega
    refine ⟨_, _, ?_, C41_sphere_filled _ h2, ?_, ellips_frame e hb.2.1 hb.2.2.1 hb.2.2.2 e.div.toNat⟩
    · rw [Body.toPH, if_neg (by omega)]
    · rfl
  | cyl c =>
    have hd : 2 ≤ c.div := hd
    have h2 : 2 ≤ c.div.toNat := by omega
    have ht := not_tol' hτ hb.2
    obtain ⟨e1, e2⟩ := setPH_ok (τ := τ) (m := cyl c.div.toNat) (cyl_frame hτ hτ' c hb.1 ht c.div.toNat)
    refine ⟨_, _, ?_, (C41_cyl _ h2).2, ?_, e2⟩
    · rw [Body.toPH, if_neg ht, if_neg (by omega), e1]
    · rfl
  | ecyl c =>
    have hd : 2 ≤ c.div := hd
    have h2 : 2 ≤ c.div.toNat := by omega
    refine ⟨_, _, ?_, (C41_cyl _ h2).2, ?_, ecyl_frame' c hb.2.1 hb.2.2.1 c.div.toNat⟩
    · rw [Body.toPH, if_neg (norm_nonneg _ _), if_neg (by omega)]
    · rfl
  | capsule c =>
    have h2 : 2 ≤ c.div := hd.1
    have h4 : c.div % 4 = 0 := hd.2
    have ht := not_tol' hτ hb.2
    obtain ⟨e1, e2⟩ := setPH_ok (τ := τ) (m := capsule c.div.toNat) (fun n => capsule_frame hτ hτ' c hb.1 ht c.div.toNat n (by omega))
    refine ⟨_, _, ?_, capsule_filled (div := c.div.toNat) (by omega) (by omega), ?_, e2⟩
    · rw [Body.toPH, if_neg ht, if_neg (by omega), if_neg (by simp [h4]), e1]
    · rfl
  | cone c =>
    have hd : 2 ≤ c.div := hd
    have h2 : 2 ≤ c.div.toNat := by omega
    have ht := not_tol' hτ hb.2
    obtain ⟨e1, e2⟩ := setPH_ok (τ := τ) (m := cone c.div.toNat) (cone_frame hτ hτ' c hb.1 ht c.div.toNat)
    refine ⟨_, _, ?_, (C41_cone _ h2).2, ?_, e2⟩
    · rw [Body.toPH, if_neg ht, if_neg (by omega), e1]
    · rfl

private theorem good_of_ok {τ : ℝ} {b : Body} {q : PH ℝ} (h : b.toPH τ = .ok q) : Spec.GoodDiv b := by
  cases b with
  | ph q => trivial
  | box b => trivial
  | sphere s => rw [Body.toPH] at h; simp only [Spec.GoodDiv]; by_contra hc; rw [if_pos (by omega)] at h; cases h
  | ellips s => rw [Body.toPH] at h; simp only [Spec.GoodDiv]; by_contra hc; rw [if_pos (by omega)] at h; cases h
  | cyl c =>
    rw [Body.toPH] at h; simp only [Spec.GoodDiv]; by_contra hc; split_ifs at h; omega
  | ecyl c =>
    rw [Body.toPH] at h; simp only [Spec.GoodDiv]; by_contra hc; split_ifs at h; omega
  | capsule c =>
    rw [Body.toPH] at h; simp only [Spec.GoodDiv]; split_ifs at h; constructor <;> omega
  | cone c =>
    rw [Body.toPH] at h; simp only [Spec.GoodDiv]; by_contra hc; split_ifs at h; omega

/-! ## The properties -/

/-- A shape of positive dimensions whose number of divisions fits its type is converted. The polyhedron has exactly
the announced numbers of vertices and faces, every vertex lies where it belongs (corners, surface, rims, hemispheres,
apex), no face refers to a vertex which does not exist, and every face lies within the shape. -/
theorem C91_inscribed {τ : ℝ} (hτ : 0 ≤ τ) (hτ' : τ ≤ 1/4) (b : Body) (hb : Spec.ProperBody τ b) (hp : ∀ q, b ≠ .ph q)
    (hd : Spec.GoodDiv b) : ∃ q, b.toPH τ = .ok q ∧ (q.nv, q.face.length) = Spec.meshSize b ∧
      (∀ n < q.nv, q.vert n ∈ Spec.frame b) ∧
      (∀ f ∈ q.face, f.i0 < q.nv ∧ f.i1 < q.nv ∧ f.i2 < q.nv) ∧
      ∀ f ∈ q.face, Spec.faceSet q f ⊆ Spec.solid b := by
  obtain ⟨m, vert, e, hF, hs, hv⟩ := toPH_form hτ hτ' b hb hp hd
  refine ⟨_, e, ?_, fun n _ => hv n, ?_, ?_⟩
  · rw [← hs, ← hF.1]; simp [Gen.toPH]
  · intro f hf
    obtain ⟨t, ht, rfl⟩ := List.mem_map.1 hf
    exact hF.2 t ht
  · intro f hf
    exact (solid_cvx b hp).tri (frame_sub b hb (hv _)) (frame_sub b hb (hv _)) (frame_sub b hb (hv _))

/-- The conversion gives a polyhedron only for such numbers of divisions; with less than two the loops write behind
the buffer of faces, and a capsule whose number is not a multiple of four keeps vertices and faces nobody has set
(C41_div_one_overflow, C41_capsule_unassigned). -/
theorem C91_divisions {τ : ℝ} (b : Body) {q : PH ℝ} (h : b.toPH τ = .ok q) : Spec.GoodDiv b := good_of_ok h

/-- Vertices of an ellipsoid are those of the unit sphere, stretched along the axes and placed. -/
theorem C91_ellips (e : Ellips ℝ) (div n : ℕ) :
    ellipsVert e div n = e.f.xform ⟨(sphereVert ⟨⟨0, 0, 0⟩, 1⟩ div n).x * e.radius.x, (sphereVert ⟨⟨0, 0, 0⟩, 1⟩ div n).y * e.radius.y,
      (sphereVert ⟨⟨0, 0, 0⟩, 1⟩ div n).z * e.radius.z⟩ := by
  unfold ellipsVert sphereVert
  split_ifs
  · congr 1; ext <;> simp only [zeo] <;> ring
  · congr 1; ext <;> simp only [zeo] <;> ring
  · congr 1; ext <;> simp only [zeo] <;> ring

/-- `zShape3DToPH` turns the shape into a polyhedron and says so, or leaves it as it is and says so; a polyhedron is
left as it is. -/
theorem C91_convert {τ : ℝ} (b : Body) {ok : Bool} {c : Body} (h : b.convert τ = .ok (ok, c)) :
    (ok = true ∧ (∃ q, c = .ph q ∧ b.toPH τ = .ok q) ∧ ((∃ q, b = .ph q) → c = b)) ∨ (ok = false ∧ c = b ∧ ∀ q, b ≠ .ph q) := by
  unfold Body.convert at h
  split at h
  · rename_i q hq
    simp only [Except.ok.injEq, Prod.mk.injEq] at h
    refine Or.inl ⟨h.1.symm, ⟨q, h.2.symm, hq⟩, ?_⟩
    rintro ⟨q', rfl⟩
    rw [Body.toPH, Except.ok.injEq] at hq
    rw [← h.2, hq]
  · rename_i hq
    simp only [Except.ok.injEq, Prod.mk.injEq] at h
    refine Or.inr ⟨h.1.symm, h.2.symm, ?_⟩
    rintro q rfl
    rw [Body.toPH] at hq; cases hq
  · cases h

/-- A cylinder, a capsule or a cone without length is refused and stays as it is. -/
theorem C91_refused {τ : ℝ} : (∀ c : WithDiv (Cyl ℝ), (c.body.c1.sub c.body.c0).isTol τ →
      (Body.cyl c).convert τ = .ok (false, .cyl c) ∧ (Body.capsule c).convert τ = .ok (false, .capsule c)) ∧
    ∀ c : WithDiv (Cone ℝ), (c.body.vert.sub c.body.center).isTol τ → (Body.cone c).convert τ = .ok (false, .cone c) := by
  refine ⟨fun c h => ⟨?_, ?_⟩, fun c h => ?_⟩
  · have : (Body.cyl c).toPH τ = .error .null := by rw [Body.toPH, if_pos h]
    rw [Body.convert, this]
  · have : (Body.capsule c).toPH τ = .error .null := by rw [Body.toPH, if_pos h]
    rw [Body.convert, this]
  · have : (Body.cone c).toPH τ = .error .null := by rw [Body.toPH, if_pos h]
    rw [Body.convert, this]

/-- An elliptic cylinder without length is not refused: `zVec3DNormalize` never returns a negative value
(src/zeo_shape3d_ecyl.c:222, src/zeo_vec3d.c:277). The result has two coinciding rims. -/
theorem C91_ecyl_false {τ : ℝ} (c : WithDiv (ECyl ℝ)) (hc : c.body.c0 = c.body.c1) (hd : 2 ≤ c.div) :
    ∃ q, (Body.ecyl c).convert τ = .ok (true, .ph q) ∧ ∀ n < c.div.toNat, q.vert n = q.vert (n + c.div.toNat) := by
  have e : (Body.ecyl c).toPH τ = .ok (Gen.toPH τ (Gen.cyl c.div.toNat) (Gen.ecylVert c.body c.div.toNat)) := by
    rw [Body.toPH, if_neg (norm_nonneg _ _), if_neg (by omega)]
  refine ⟨_, by rw [Body.convert, e], ?_⟩
  intro n hn
  show ecylVert _ _ _ = ecylVert _ _ _
  simp only [ecylVert, if_pos hn, if_neg (by omega : ¬ n + c.div.toNat < c.div.toNat), Nat.add_sub_cancel, hc]

private theorem multi_cons {τ : ℝ} (b : Body) (l : List Body) : multiToPH τ (b :: l) =
    match b.convert τ with
    | .error e => .error e
    | .ok (true, c) => match multiToPH τ l with
      | .error e => .error e
      | .ok (ok, l') => .ok (ok, c :: l')
    | .ok (false, c) => .ok (false, c :: l) := by
  rw [multiToPH]
  cases b.convert τ with
  | error e => rfl
  | ok r =>
    obtain ⟨_ | _, c⟩ := r
    · rfl
    · simp only []
      cases multiToPH τ l with
      | error e => rfl
      | ok s => rfl

/-- `zMultiShape3DToPH` converts proper shapes one by one, in place. -/
theorem C91_multi {τ : ℝ} (hτ : 0 ≤ τ) (hτ' : τ ≤ 1/4) (l : List Body)
    (hl : ∀ b ∈ l, (∃ q, b = .ph q) ∨ (Spec.ProperBody τ b ∧ Spec.GoodDiv b)) :
    ∃ l', multiToPH τ l = .ok (true, l') ∧ List.Forall₂ (fun b c => ∃ q, c = .ph q ∧ b.toPH τ = .ok q) l l' ∧
      multiToPH τ l' = .ok (true, l') := by
  induction l with
  | nil => exact ⟨[], rfl, .nil, rfl⟩
  | cons b l ih =>
    obtain ⟨l', h1, h2, h3⟩ := ih fun b hb => hl b (List.mem_cons_of_mem _ hb)
    have hq : ∃ q, b.toPH τ = .ok q := by
      by_cases hp : ∃ q, b = .ph q
      · obtain ⟨q, rfl⟩ := hp; exact ⟨q, rfl⟩
      · have hp' : ∀ q, b ≠ .ph q := fun q h => hp ⟨q, h⟩
        rcases hl b List.mem_cons_self with h | ⟨h, g⟩
        · exact absurd h hp
        · obtain ⟨q, hq, -⟩ := C91_inscribed hτ hτ' b h hp' g
          exact ⟨q, hq⟩
    obtain ⟨q, hq⟩ := hq
    have hc : b.convert τ = .ok (true, .ph q) := by rw [Body.convert, hq]
    have hc' : (Body.ph q).convert τ = .ok (true, .ph q) := rfl
    refine ⟨.ph q :: l', ?_, .cons ⟨q, rfl, hq⟩ h2, ?_⟩
    · rw [multi_cons, hc]; simp only [h1]
    · rw [multi_cons, hc']; simp only [h3]

/-- When it fails, the shapes before the refused one are already polyhedra; the refused one and those behind it are as
they were. -/
theorem C91_multi_fail {τ : ℝ} (l l' : List Body) (h : multiToPH τ l = .ok (false, l')) :
    ∃ done done' b rest, l = done ++ b :: rest ∧ l' = done' ++ b :: rest ∧ b.toPH τ = .error .null ∧
      List.Forall₂ (fun b c => ∃ q, c = .ph q ∧ b.toPH τ = .ok q) done done' := by
  induction l generalizing l' with
  | nil => rw [multiToPH] at h; cases h
  | cons b l ih =>
    rw [multi_cons] at h
    cases hq : b.toPH τ with
    | ok q =>
      have hc : b.convert τ = .ok (true, .ph q) := by rw [Body.convert, hq]
      rw [hc] at h
      simp only [] at h
      cases hm : multiToPH τ l with
      | error e => rw [hm] at h; cases h
      | ok s =>
        rw [hm] at h
        obtain ⟨ok, t⟩ := s
        simp only [Except.ok.injEq, Prod.mk.injEq] at h
        obtain ⟨rfl, rfl⟩ := h
        obtain ⟨d, d', x, r, e1, e2, e3, e4⟩ := ih t hm
        exact ⟨b :: d, .ph q :: d', x, r, by rw [e1]; rfl, by rw [e2]; rfl, e3, .cons ⟨q, rfl, hq⟩ e4⟩
    | error e =>
      cases e with
      | null =>
        have hc : b.convert τ = .ok (false, b) := by rw [Body.convert, hq]
        rw [hc] at h
        simp only [Except.ok.injEq, Prod.mk.injEq, true_and] at h
        exact ⟨[], [], b, l, rfl, h.symm, hq, .nil⟩
      | undef =>
        have hc : b.convert τ = .error .undef := by rw [Body.convert, hq]
        rw [hc] at h; cases h
      | unmodelled =>
        have hc : b.convert τ = .error .unmodelled := by rw [Body.convert, hq]
        rw [hc] at h; cases h

/-- A failed conversion of several shapes is not undone: a sphere and a cylinder without length give NULL and a
polyhedron beside the cylinder. -/
theorem C91_multi_false {τ : ℝ} (hτ : 0 ≤ τ) : ∃ l l' : List Body, multiToPH τ l = .ok (false, l') ∧ l'.length = l.length ∧ l' ≠ l := by
  have hc : (Body.cyl ⟨⟨⟨0, 0, 0⟩, ⟨0, 0, 0⟩, 1⟩, 32⟩).convert τ = .ok (false, _) :=
    (C91_refused.1 ⟨⟨⟨0, 0, 0⟩, ⟨0, 0, 0⟩, 1⟩, 32⟩ (by simp [Vec3.isTol, zIsTol, Vec3.sub, hτ])).1
  refine ⟨[.sphere ⟨⟨⟨0, 0, 0⟩, 1⟩, 32⟩, .cyl ⟨⟨⟨0, 0, 0⟩, ⟨0, 0, 0⟩, 1⟩, 32⟩], [.ph (spherePH τ ⟨⟨0, 0, 0⟩, 1⟩ 32), .cyl ⟨⟨⟨0, 0, 0⟩, ⟨0, 0, 0⟩, 1⟩, 32⟩], ?_, rfl, ?_⟩
  · have hs : (Body.sphere ⟨⟨⟨0, 0, 0⟩, 1⟩, 32⟩).convert τ = .ok (true, .ph (spherePH τ ⟨⟨0, 0, 0⟩, 1⟩ 32)) := by
      have : (Body.sphere ⟨⟨⟨0, 0, 0⟩, 1⟩, 32⟩).toPH τ = .ok (spherePH τ ⟨⟨0, 0, 0⟩, 1⟩ 32) := by
        rw [Body.toPH, if_neg (by norm_num)]; rfl
      rw [Body.convert, this]
    rw [multi_cons, hs]
    simp only []
    rw [multi_cons, hc]
  · intro h
    cases h

/-- The polyhedron need not come near the tips of the shape: no vertex of an ellipsoid of semi-axes 10, 1, 1 with three
divisions is beyond |x| = 9. Whatever encloses the vertices (`zMultiShape3DBoundingBall`) does not thereby enclose the
shape. -/
theorem C91_tip_false (τ : ℝ) : ∃ (e : WithDiv (Ellips ℝ)) (q : PH ℝ), Spec.ProperBody τ (.ellips e) ∧ (Body.ellips e).toPH τ = .ok q ∧
    (⟨10, 0, 0⟩ : Vec3 ℝ) ∈ Spec.solid (.ellips e) ∧ ∀ n < q.nv, |(q.vert n).x| ≤ 9 := by
  refine ⟨⟨{ f := ⟨⟨0, 0, 0⟩, .ident⟩, radius := ⟨10, 1, 1⟩ }, 3⟩, _, ⟨Mat3.IsRot.ident, by norm_num, by norm_num, by norm_num⟩,
    by rw [Body.toPH, if_neg (by norm_num)], ⟨10, 0, 0, by norm_num, by simp [Mat3.ident, Vec3.ex], by simp [Mat3.ident, Vec3.ex], by simp [Mat3.ident, Vec3.ex]⟩, ?_⟩
  intro n hn
  have hn : n < 8 := hn
  have h3 : Real.sqrt 3 ≤ 9/5 := Real.sqrt_le_iff.2 ⟨by norm_num, by norm_num⟩
  have h3' := Real.sqrt_nonneg 3
  show |(ellipsVert _ 3 n).x| ≤ 9
  rw [C91_ellips]
  have key : ∀ a t : ℝ, |Real.sin a| ≤ 9/10 → |Real.sin a * Real.cos t * 10| ≤ 9 := by
    intro a t h
    rw [abs_mul, abs_mul, abs_of_pos (by norm_num : (0:ℝ) < 10)]
    nlinarith [abs_nonneg (Real.sin a), abs_nonneg (Real.cos t), Real.abs_cos_le_one t]
  have s1 : |Real.sin (Real.pi * (1 : ℕ) / 3)| ≤ 9/10 := by
    rw [Nat.cast_one, mul_one, Real.sin_pi_div_three, abs_of_nonneg (by positivity)]; linarith
  have s2 : |Real.sin (Real.pi * (2 : ℕ) / 3)| ≤ 9/10 := by
    rw [show Real.pi * (2 : ℕ) / 3 = Real.pi - Real.pi / 3 by push_cast; ring, Real.sin_pi_sub, Real.sin_pi_div_three, abs_of_nonneg (by positivity)]; linarith
  have k : ∀ i j : ℕ, (i = 1 ∨ i = 2) → |Real.sin (Real.pi * i / 3) * Real.cos (2 * Real.pi * j / 3) * 10| ≤ 9 := by
    intro i j h
    rcases h with rfl | rfl
    · exact key _ _ s1
    · exact key _ _ s2
  by_cases h0 : n = 0
  · subst h0; simp [sphereVert, zeo, Mat3.ident]
  by_cases h7 : n = 7
  · subst h7; simp [sphereVert, zeo, Mat3.ident]
  have := k ((n - 1) / 3 + 1) ((n - 1) % 3) (by omega)
  rw [sphereVert, if_neg h0, if_neg (by omega)]
  refine le_trans (le_of_eq ?_) this
  congr 1
  simp only [zeo, Mat3.ident]
  push_cast
  ring

/-! ## Non-vacuity -/

example : Spec.ProperBody 0 (.sphere ⟨⟨⟨0, 0, 0⟩, 1⟩, 32⟩) ∧ Spec.GoodDiv (.sphere ⟨⟨⟨0, 0, 0⟩, 1⟩, 32⟩) :=
  ⟨by norm_num [Spec.ProperBody], by norm_num [Spec.GoodDiv]⟩
example : Spec.ProperBody 0 (.capsule ⟨⟨⟨0, 0, 0⟩, ⟨0, 0, 1⟩, 1⟩, 32⟩) ∧ Spec.GoodDiv (.capsule ⟨⟨⟨0, 0, 0⟩, ⟨0, 0, 1⟩, 1⟩, 32⟩) :=
  ⟨by norm_num [Spec.ProperBody, Spec.ed, Spec.sqd], by norm_num [Spec.GoodDiv]⟩

end
end Zeo

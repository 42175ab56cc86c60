import Verif.Lemmas.Ident
import Verif.Props.C30
import Verif.Props.C29
import Mathlib.LinearAlgebra.Matrix.ToLinearEquiv

/-! # C61: normal vectors and registration of point clouds

src/zeo_vec3d_profile.c. `Data.Shows` says which points a set holds (C35), `Spec.mean` is the mean over a list
(C60). -/

namespace Zeo
open Matrix Data

variable {τ : ℝ} {src dest : Data (Vec3 ℝ)} {xs ys : List (Vec3 ℝ)}

private theorem sum_foldl61 {σ β : Type*} (φ : σ → ℝ) (g : β → ℝ) (f : σ → β → σ) (h : ∀ s v, φ (f s v) = φ s + g v)
    (l : List β) : ∀ s, φ (l.foldl f s) = φ s + (l.map g).sum := by
  induction l with
  | nil => intro s; simp
  | cons v l ih => intro s; rw [List.foldl_cons, ih, h, List.map_cons, List.sum_cons]; ring

private theorem zip_fst_sum (g : Vec3 ℝ → ℝ) : ∀ {xs ys : List (Vec3 ℝ)}, xs.length = ys.length → ((xs.zip ys).map fun ab => g ab.1).sum = (xs.map g).sum := by
  intro xs
  induction xs with
  | nil => intro ys _; simp
  | cons x xs ih =>
    intro ys h
    cases ys with
    | nil => simp at h
    | cons y ys =>
      simp only [List.zip_cons_cons, List.map_cons, List.sum_cons]
      rw [ih (by simpa using h)]

/-- What `zVec3DDataIdentFrame` computes: the cross-covariance matrix as a bilinear form, and the result. -/
private theorem ident_eq (h1 : src.WF) (h2 : dest.WF) (s1 : src.Shows xs) (s2 : dest.Shows ys) (hl : xs.length = ys.length) (h3 : 3 ≤ xs.length)
    {c c' : Vec3 ℝ} (hc : src.barycenter = some c) (hc' : dest.barycenter = some c') (junk : Vec3 ℝ) :
    ∃ M : Mat3 ℝ, (∀ y x : Vec3 ℝ, y.inner (M.mulVec x) = ((xs.zip ys).map fun ab => (ab.1.sub c).inner y * (ab.2.sub c').inner x).sum / xs.length) ∧
      src.identFrame τ dest junk = (M.svd τ).map fun r =>
        if Spec.mean (fun v => (v.sub c).sqrNorm) xs = 0 then .nan (r.2.2.2.mulMatT r.2.1)
        else .frame ⟨c'.sub (((r.2.2.2.mulMatT r.2.1).mulVec c).mul ((r.2.2.1.x + r.2.2.1.y + r.2.2.1.z) / Spec.mean (fun v => (v.sub c).sqrNorm) xs)),
          r.2.2.2.mulMatT r.2.1⟩ := by
  have k1 : src.contents = xs := C35_shows_unique src _ _ h1.shows s1
  have k2 : dest.contents = ys := C35_shows_unique dest _ _ h2.shows s2
  have z1 : src.size = xs.length := by rw [size_eq h1, k1]
  have z2 : dest.size = ys.length := by rw [size_eq h2, k2]
  have hn : (xs.length : ℝ) ≠ 0 := by
    have : xs.length ≠ 0 := by omega
    exact_mod_cast this
  obtain ⟨w1, p1, q1⟩ := h1.rewind
  obtain ⟨w2, p2, q2⟩ := h2.rewind
  have hloop : loop2 (identStep c c') (src.size + 1) src.rewind dest.rewind (0, Mat3.zero) =
      (xs.zip ys).foldl (fun s ab => identStep c c' s ab.1 ab.2) (0, Mat3.zero) := by
    rw [WF.loop2 (identStep c c') (src.size + 1) w1 w2 _ (by rw [p1, q1, size_eq h1]; omega), p1, q1, p2, q2, k1, k2]; rfl
  have hso : ((xs.zip ys).foldl (fun s ab => identStep c c' s ab.1 ab.2) (0, Mat3.zero)).1 = (xs.map fun v => (v.sub c).sqrNorm).sum := by
    rw [sum_foldl61 (fun s : ℝ × Mat3 ℝ => s.1) (fun ab : Vec3 ℝ × Vec3 ℝ => (ab.1.sub c).sqrNorm) _ (fun _ _ => rfl)]
    rw [zip_fst_sum (fun v => (v.sub c).sqrNorm) hl, zero_add]
  refine ⟨((xs.zip ys).foldl (fun s ab => identStep c c' s ab.1 ab.2) (0, Mat3.zero)).2.mul (1 / (xs.length : ℝ)), ?_, ?_⟩
  · intro y x
    have hm : ∀ M : Mat3 ℝ, y.inner ((M.mul (1 / (xs.length : ℝ))).mulVec x) = (y.inner (M.mulVec x)) / xs.length := by
      intro M; simp only [zeo]; ring
    rw [hm, sum_foldl61 (fun s : ℝ × Mat3 ℝ => y.inner (s.2.mulVec x)) (fun ab : Vec3 ℝ × Vec3 ℝ => (ab.1.sub c).inner y * (ab.2.sub c').inner x) _ (by
      intro s v; simp only [identStep, zeo]; ring)]
    simp only [zeo]; ring
  · unfold identFrame
    rw [if_neg (by rw [z1, z2, hl]; simp), if_neg (by omega), hc, hc']
    simp only [Option.getD_some]
    rw [hloop, hso, z1]
    simp only [Mat3.div, if_neg hn]
    rfl

/-- Too few points, or different numbers of points, are reported. -/
theorem C61_ident_null (h1 : src.WF) (h2 : dest.WF) (s1 : src.Shows xs) (s2 : dest.Shows ys) (junk : Vec3 ℝ)
    (h : xs.length ≠ ys.length ∨ xs.length < 3) : src.identFrame τ dest junk = some .null := by
  have z1 : src.size = xs.length := by rw [size_eq h1, C35_shows_unique src _ _ h1.shows s1]
  have z2 : dest.size = ys.length := by rw [size_eq h2, C35_shows_unique dest _ _ h2.shows s2]
  unfold identFrame
  rw [z1, z2]
  by_cases hl : xs.length = ys.length
  · rw [if_neg (by simp [hl]), if_pos (by tauto)]
  · rw [if_pos hl]

private theorem orth_norm {R : Mat3 ℝ} (hR : R.toMatrixᵀ * R.toMatrix = 1) (c : Vec3 ℝ) : (R.mulVec c).sqrNorm = c.sqrNorm := by
  have E : ∀ i j, (R.toMatrixᵀ * R.toMatrix) i j = (1 : Matrix (Fin 3) (Fin 3) ℝ) i j := fun i j => by rw [hR]
  have r1 := E 0 0; have r2 := E 1 1; have r3 := E 2 2; have r4 := E 0 1; have r5 := E 1 2; have r6 := E 2 0
  simp [Matrix.mul_apply, Fin.sum_univ_three, Mat3.toMatrix] at r1 r2 r3 r4 r5 r6
  simp only [zeo]
  linear_combination c.x * c.x * r1 + c.y * c.y * r2 + c.z * c.z * r3 + 2 * c.x * c.y * r4 + 2 * c.y * c.z * r5 + 2 * c.z * c.x * r6

private theorem pos_of_ne {x : Fin 3 → ℝ} (hx0 : x ≠ 0) : 0 < (⟨x 0, x 1, x 2⟩ : Vec3 ℝ).sqrNorm := by
  rcases (Ident.sqrNorm_nonneg (⟨x 0, x 1, x 2⟩ : Vec3 ℝ)).eq_or_lt with h0 | h0
  · exfalso; apply hx0
    have h0' : x 0 * x 0 + x 1 * x 1 + x 2 * x 2 = 0 := h0.symm
    have p0 := mul_self_nonneg (x 0); have p1 := mul_self_nonneg (x 1); have p2 := mul_self_nonneg (x 2)
    have e0 : x 0 = 0 := mul_self_eq_zero.1 (by linarith)
    have e1 : x 1 = 0 := mul_self_eq_zero.1 (by linarith)
    have e2 : x 2 = 0 := mul_self_eq_zero.1 (by linarith)
    funext i; fin_cases i <;> assumption
  · exact h0

set_option maxHeartbeats 1000000 in
private theorem similar_aux (hτ : 0 < τ) (h1 : src.WF) (h2 : dest.WF) (s1 : src.Shows xs) {R : Mat3 ℝ} (hR : R.toMatrixᵀ * R.toMatrix = 1) {k : ℝ} (hk : 0 < k) (t : Vec3 ℝ)
    (s2 : dest.Shows (xs.map fun v => ((R.mulVec v).mul k).add t)) (h3 : 3 ≤ xs.length) {c : Vec3 ℝ} (hc : src.barycenter = some c)
    {ς : ℝ} (hς : 0 < ς) (hspread : ∀ x : Vec3 ℝ, x.sqrNorm = 1 → ς ≤ Spec.mean (fun v => (v.sub c).inner x ^ 2) xs)
    (hτς : τ < (k * ς) ^ 2) (junk : Vec3 ℝ) :
    ∃ f, src.identFrame τ dest junk = some (.frame f) ∧
      (∀ x : Vec3 ℝ, ((f.att.mulVec x).sub (R.mulVec x)).sqrNorm ≤ 6 * (τ / (k * ς) ^ 2) ^ 2 * x.sqrNorm) ∧
      (f.pos.sub t).sqrNorm ≤ (8 * k * (τ / (k * ς) ^ 2)) ^ 2 * c.sqrNorm ∧
      ∃ q : ℝ, |q - k| ≤ 2 * k * (τ / (k * ς) ^ 2) ∧ f.pos = (((R.mulVec c).mul k).add t).sub ((f.att.mulVec c).mul q) := by
  have hx : xs ≠ [] := by rintro rfl; simp at h3
  obtain ⟨c0, hc0, hmean, -⟩ := C60_barycenter h1 s1 hx
  rw [hc] at hc0
  obtain rfl := Option.some.inj hc0
  have m0 : Spec.mean Vec3.x xs = c.x := (hmean 0).symm
  have m1 : Spec.mean Vec3.y xs = c.y := (hmean 1).symm
  have m2 : Spec.mean Vec3.z xs = c.z := (hmean 2).symm
  set g : Vec3 ℝ → Vec3 ℝ := fun v => ((R.mulVec v).mul k).add t with hg
  have hy : xs.map g ≠ [] := by simpa using hx
  have mmap : ∀ F : Vec3 ℝ → ℝ, Spec.mean F (xs.map g) = Spec.mean (fun v => F (g v)) xs := by
    intro F; simp [Spec.mean, Function.comp_def]
  have hc' : dest.barycenter = some (g c) := by
    obtain ⟨c1, hc1, hm1, -⟩ := C60_barycenter h2 s2 hy
    rw [hc1]
    have aff : ∀ a b d e : ℝ, Spec.mean (fun v => k * (a * v.x + b * v.y + d * v.z) + e) xs = k * (a * c.x + b * c.y + d * c.z) + e := by
      intro a b d e
      have : ∀ v : Vec3 ℝ, k * (a * v.x + b * v.y + d * v.z) + e = k * (1 * (a * v.x + b * v.y) + d * v.z) + e * 1 := by intro v; ring
      rw [Spec.mean_congr this, Spec.mean_lin, Spec.mean_lin, Spec.mean_lin, Spec.mean_const _ hx, m0, m1, m2]; ring
    have e0 := hm1 0; have e1 := hm1 1; have e2 := hm1 2
    rw [mmap] at e0 e1 e2
    congr 1
    ext
    · refine e0.trans ((Spec.mean_congr (fun v => ?_) xs).trans (aff R.x.x R.y.x R.z.x t.x) |>.trans ?_) <;> simp [hg, Vec3.toFin, zeo]
    · refine e1.trans ((Spec.mean_congr (fun v => ?_) xs).trans (aff R.x.y R.y.y R.z.y t.y) |>.trans ?_) <;> simp [hg, Vec3.toFin, zeo]
    · refine e2.trans ((Spec.mean_congr (fun v => ?_) xs).trans (aff R.x.z R.y.z R.z.z t.z) |>.trans ?_) <;> simp [hg, Vec3.toFin, zeo]
  obtain ⟨M, hM, hid⟩ := ident_eq (τ := τ) h1 h2 s1 s2 (by simp) h3 hc hc' junk
  obtain ⟨C, hC, hCe⟩ := C60_cov h1 s1 hx c
  -- the covariance as a bilinear form
  have hCb : ∀ y x : Vec3 ℝ, y.inner (C.mulVec x) = Spec.mean (fun v => (v.sub c).inner y * (v.sub c).inner x) xs := by
    intro y x
    have E := fun i j => hCe i j
    have e00 := E 0 0; have e01 := E 0 1; have e02 := E 0 2; have e10 := E 1 0; have e11 := E 1 1; have e12 := E 1 2
    have e20 := E 2 0; have e21 := E 2 1; have e22 := E 2 2
    simp only [Mat3.toMatrix, Vec3.toFin, Matrix.of_apply, Matrix.cons_val_zero, Matrix.cons_val_one, Matrix.cons_val] at e00 e01 e02 e10 e11 e12 e20 e21 e22
    have : ∀ v : Vec3 ℝ, (v.sub c).inner y * (v.sub c).inner x =
        y.x * x.x * ((v.x - c.x) * (v.x - c.x)) + 1 * (y.x * x.y * ((v.x - c.x) * (v.y - c.y)) + 1 * (y.x * x.z * ((v.x - c.x) * (v.z - c.z)) + 1 *
        (y.y * x.x * ((v.y - c.y) * (v.x - c.x)) + 1 * (y.y * x.y * ((v.y - c.y) * (v.y - c.y)) + 1 * (y.y * x.z * ((v.y - c.y) * (v.z - c.z)) + 1 *
        (y.z * x.x * ((v.z - c.z) * (v.x - c.x)) + 1 * (y.z * x.y * ((v.z - c.z) * (v.y - c.y)) + y.z * x.z * ((v.z - c.z) * (v.z - c.z))))))))) := by
      intro v; simp only [zeo]; ring
    rw [Spec.mean_congr this, Spec.mean_lin, Spec.mean_lin, Spec.mean_lin, Spec.mean_lin, Spec.mean_lin, Spec.mean_lin, Spec.mean_lin, Spec.mean_lin,
      ← e00, ← e01, ← e02, ← e10, ← e11, ← e12, ← e20, ← e21, ← e22]
    simp only [zeo]; ring
  set B := C.mul k with hB
  have hBv : ∀ x, B.mulVec x = (C.mulVec x).mul k := by intro x; rw [hB]; ext <;> simp only [zeo] <;> ring
  have hBsymm : B.toMatrix.IsSymm := by
    ext i j
    rw [Matrix.transpose_apply]
    have e : ∀ i j, B.toMatrix i j = k * C.toMatrix i j := by
      intro i j; rw [hB]; fin_cases i <;> fin_cases j <;> simp [Mat3.toMatrix, zeo]
    rw [e, e, hCe, hCe, Spec.mean_congr (fun v => mul_comm _ _)]
  have hBpos : ∀ x : Vec3 ℝ, (k * ς) * x.sqrNorm ≤ x.inner (B.mulVec x) := by
    intro x
    have ex : x.inner (B.mulVec x) = k * Spec.mean (fun v => (v.sub c).inner x ^ 2) xs := by
      rw [hBv, ← Spec.mean_congr (fun v => (pow_two ((v.sub c).inner x)).symm), ← hCb]; simp only [zeo]; ring
    rw [ex, mul_assoc]
    refine mul_le_mul_of_nonneg_left ?_ hk.le
    rcases (Ident.sqrNorm_nonneg x).eq_or_lt with h0 | h0
    · rw [← h0, mul_zero]
      exact div_nonneg (List.sum_nonneg (by simp only [List.mem_map]; rintro _ ⟨v, -, rfl⟩; positivity)) (by positivity)
    · set n := √x.sqrNorm with hn
      have hn0 : 0 < n := Real.sqrt_pos.2 h0
      have hnn : n * n = x.sqrNorm := Real.mul_self_sqrt h0.le
      have hu : (x.mul (1 / n)).sqrNorm = 1 := by
        have : (x.mul (1 / n)).sqrNorm = x.sqrNorm / (n * n) := by simp only [zeo]; field_simp
        rw [this, hnn, div_self h0.ne']
      have := hspread _ hu
      have e : ∀ v : Vec3 ℝ, (v.sub c).inner (x.mul (1 / n)) ^ 2 = (1 / (n * n)) * (v.sub c).inner x ^ 2 + 0 * 1 := by
        intro v; simp only [zeo]; field_simp; ring
      rw [Spec.mean_congr e, Spec.mean_lin, zero_mul, add_zero, hnn, one_div_mul_eq_div, le_div_iff₀ h0] at this
      exact this
  have hMt : ∀ x, M.mulTVec x = R.mulVec (B.mulVec x) := by
    intro x
    have hl : ∀ y : Vec3 ℝ, (M.mulTVec x).inner y = (R.mulVec (B.mulVec x)).inner y := by
      intro y
      have e1 : (M.mulTVec x).inner y = x.inner (M.mulVec y) := by simp only [zeo]; ring
      have ez : xs.zip (xs.map g) = xs.map fun v => (v, g v) := by
        clear * -
        induction xs with
        | nil => rfl
        | cons a l ih => simp [ih]
      have e2 : (R.mulVec (B.mulVec x)).inner y = k * ((R.mulTVec y).inner (C.mulVec x)) := by rw [hBv]; simp only [zeo]; ring
      rw [e1, hM, ez, List.map_map, e2, hCb]
      have e3 : ∀ v : Vec3 ℝ, (v.sub c).inner x * ((g v).sub (g c)).inner y = k * ((v.sub c).inner (R.mulTVec y) * (v.sub c).inner x) + 0 * 1 := by
        intro v; rw [hg]; simp only [zeo]; ring
      have e4 := Spec.mean_congr e3 xs
      rw [Spec.mean_lin, zero_mul, add_zero] at e4
      rw [← e4]; rfl
    ext
    · have := hl .ex; simpa [zeo] using this
    · have := hl .ey; simpa [zeo] using this
    · have := hl .ez; simpa [zeo] using this
  obtain ⟨rk, u, sv, v, hsvd, hatt, htr, htr3⟩ := Ident.svd_near hτ (mul_pos hk hς) hτς hBsymm hBpos hR hMt
  set so := Spec.mean (fun v => (v.sub c).sqrNorm) xs with hso
  have hkso : k * so = B.x.x + B.y.y + B.z.z := by
    have e : ∀ v : Vec3 ℝ, (v.sub c).sqrNorm = 1 * ((v.sub c).inner .ex * (v.sub c).inner .ex) + 1 * (1 * ((v.sub c).inner .ey * (v.sub c).inner .ey) +
        1 * ((v.sub c).inner .ez * (v.sub c).inner .ez)) := by intro v; simp only [zeo]; ring
    rw [hso, Spec.mean_congr e, Spec.mean_lin, Spec.mean_lin, ← hCb, ← hCb, ← hCb, hB]; simp only [zeo]; ring
  set σ := k * ς with hσ
  have hσ0 : 0 < σ := mul_pos hk hς
  set ε := τ / σ ^ 2 with hε
  have hε0 : 0 < ε := by positivity
  have hε1 : ε < 1 := by rw [hε, div_lt_one (by positivity)]; exact hτς
  have hso0 : 0 < so := by
    have : 0 < k * so := by rw [hkso]; linarith
    exact pos_of_mul_pos_right this hk.le
  set q := (sv.x + sv.y + sv.z) / so with hq
  have hqk : |q - k| ≤ √2 * k * ε := by
    have e1 : q - k = (sv.x + sv.y + sv.z - (B.x.x + B.y.y + B.z.z)) / so := by rw [hq, ← hkso]; field_simp
    rw [e1, abs_div, abs_of_pos hso0, div_le_iff₀ hso0]
    refine htr.trans ?_
    have h5 : 3 * σ * (√2 * ε) ≤ (k * so) * (√2 * ε) := mul_le_mul_of_nonneg_right (by rw [hkso]; exact htr3) (by positivity)
    have h6 : 3 * σ * (√2 * ε) = 3 * √2 * τ / σ := by rw [hε]; field_simp
    linarith
  rw [hsvd] at hid
  simp only [Option.map_some, if_neg hso0.ne'] at hid
  set att := v.mulMatT u with hattdef
  have s2' : √2 ≤ 3 / 2 := by rw [Real.sqrt_le_left (by norm_num)]; norm_num
  have s6' : √6 ≤ 5 / 2 := by rw [Real.sqrt_le_left (by norm_num)]; norm_num
  refine ⟨_, hid, hatt, ?_, q, hqk.trans (by nlinarith [mul_pos hk hε0]), rfl⟩
  show ((g c).sub ((att.mulVec c).mul q) |>.sub t).sqrNorm ≤ _
  set N := √c.sqrNorm with hN
  have hN0 : 0 ≤ N := Real.sqrt_nonneg _
  have hNN : N ^ 2 = c.sqrNorm := Real.sq_sqrt (Ident.sqrNorm_nonneg c)
  -- attitude applied to the barycenter
  have a1 : ((att.mulVec c).sub (R.mulVec c)).sqrNorm ≤ (√6 * ε * N) ^ 2 := by
    rw [mul_pow, mul_pow, Real.sq_sqrt (by norm_num), hNN]; exact hatt c
  have a2 : (R.mulVec c).sqrNorm ≤ N ^ 2 := by rw [hNN, orth_norm hR]
  have a3 : (att.mulVec c).sqrNorm ≤ (√6 * ε * N + N) ^ 2 := by
    have := Ident.add_le a1 a2 (by positivity) hN0
    rwa [show ((att.mulVec c).sub (R.mulVec c)).add (R.mulVec c) = att.mulVec c by ext <;> simp only [Vec3.sub, Vec3.add] <;> ring] at this
  have b1 : (((att.mulVec c).sub (R.mulVec c)).mul (-k)).sqrNorm ≤ (k * (√6 * ε * N)) ^ 2 := by
    have : (((att.mulVec c).sub (R.mulVec c)).mul (-k)).sqrNorm = k ^ 2 * ((att.mulVec c).sub (R.mulVec c)).sqrNorm := by
      generalize (att.mulVec c).sub (R.mulVec c) = w
      simp only [zeo]; ring
    rw [this, mul_pow k]
    exact mul_le_mul_of_nonneg_left a1 (by positivity)
  have b2 : ((att.mulVec c).mul (k - q)).sqrNorm ≤ ((√2 * k * ε) * (√6 * ε * N + N)) ^ 2 := by
    have : ((att.mulVec c).mul (k - q)).sqrNorm = (q - k) ^ 2 * (att.mulVec c).sqrNorm := by
      generalize att.mulVec c = w
      simp only [zeo]; ring
    rw [this, mul_pow (√2 * k * ε)]
    exact mul_le_mul (sq_le_sq' (abs_le.1 hqk).1 (abs_le.1 hqk).2) a3 (Ident.sqrNorm_nonneg _) (by positivity)
  have b3 := Ident.add_le b1 b2 (by positivity) (by positivity)
  have ee : ((g c).sub ((att.mulVec c).mul q)).sub t = ((((att.mulVec c).sub (R.mulVec c)).mul (-k)).add ((att.mulVec c).mul (k - q))) := by
    show ((((R.mulVec c).mul k).add t).sub ((att.mulVec c).mul q)).sub t = _
    generalize att.mulVec c = w
    generalize R.mulVec c = w'
    ext <;> simp only [zeo] <;> ring
  rw [ee, ← hNN, ← mul_pow]
  refine b3.trans (pow_le_pow_left₀ (by positivity) ?_ 2)
  have hkε : 0 ≤ k * ε * N := by positivity
  have t1 : k * (√6 * ε * N) ≤ (5 / 2) * (k * ε * N) := by
    calc _ = √6 * (k * ε * N) := by ring
      _ ≤ _ := mul_le_mul_of_nonneg_right s6' hkε
  have t2 : √2 * k * ε * (√6 * ε * N + N) ≤ (3 / 2) * (7 / 2) * (k * ε * N) := by
    have u1 : √6 * ε + 1 ≤ 7 / 2 := by nlinarith [Real.sqrt_nonneg 6]
    calc _ = (√2 * (√6 * ε + 1)) * (k * ε * N) := by ring
      _ ≤ _ := mul_le_mul_of_nonneg_right (mul_le_mul s2' u1 (by positivity) (by norm_num)) hkε
  calc _ ≤ (5 / 2) * (k * ε * N) + (3 / 2) * (7 / 2) * (k * ε * N) := add_le_add t1 t2
    _ ≤ _ := by nlinarith

/-- **C61** (`zVec3DDataIdentFrame`): if the points of `dest` are those of `src` rotated by `R`, scaled by `k` and
translated by `t`, and those of `src` spread in every direction with a variance of at least `ς`, then the attitude
and the position found agree with `R` and `t` up to a multiple of the tolerance over `(k ς)²`. -/
theorem C61_ident_similar (hτ : 0 < τ) (h1 : src.WF) (h2 : dest.WF) (s1 : src.Shows xs) {R : Mat3 ℝ} (hR : R.IsRot) {k : ℝ} (hk : 0 < k) (t : Vec3 ℝ)
    (s2 : dest.Shows (xs.map fun v => ((R.mulVec v).mul k).add t)) (h3 : 3 ≤ xs.length) {c : Vec3 ℝ} (hc : src.barycenter = some c)
    {ς : ℝ} (hς : 0 < ς) (hspread : ∀ x : Vec3 ℝ, x.sqrNorm = 1 → ς ≤ Spec.mean (fun v => (v.sub c).inner x ^ 2) xs)
    (hτς : τ < (k * ς) ^ 2) (junk : Vec3 ℝ) :
    ∃ f, src.identFrame τ dest junk = some (.frame f) ∧
      (∀ x : Vec3 ℝ, ((f.att.mulVec x).sub (R.mulVec x)).sqrNorm ≤ 6 * (τ / (k * ς) ^ 2) ^ 2 * x.sqrNorm) ∧
      (f.pos.sub t).sqrNorm ≤ (8 * k * (τ / (k * ς) ^ 2)) ^ 2 * c.sqrNorm := by
  obtain ⟨f, h4, h5, h6, -⟩ := similar_aux hτ h1 h2 s1 hR.1 hk t s2 h3 hc hς hspread hτς junk
  exact ⟨f, h4, h5, h6⟩

/-- **C61** (`zVec3DDataIdentFrame`): a rigid displacement of a spread-out set is found, up to a multiple of the
tolerance over the square of the spread. -/
theorem C61_ident_rigid (hτ : 0 < τ) (h1 : src.WF) (h2 : dest.WF) (s1 : src.Shows xs) {g : Frame3 ℝ} (hR : g.att.IsRot)
    (s2 : dest.Shows (xs.map g.xform)) (h3 : 3 ≤ xs.length) {c : Vec3 ℝ} (hc : src.barycenter = some c)
    {ς : ℝ} (hς : 0 < ς) (hspread : ∀ x : Vec3 ℝ, x.sqrNorm = 1 → ς ≤ Spec.mean (fun v => (v.sub c).inner x ^ 2) xs)
    (hτς : τ < ς ^ 2) (junk : Vec3 ℝ) :
    ∃ f, src.identFrame τ dest junk = some (.frame f) ∧
      (∀ x : Vec3 ℝ, ((f.att.mulVec x).sub (g.att.mulVec x)).sqrNorm ≤ 6 * (τ / ς ^ 2) ^ 2 * x.sqrNorm) ∧
      (f.pos.sub g.pos).sqrNorm ≤ (8 * (τ / ς ^ 2)) ^ 2 * c.sqrNorm := by
  have e : xs.map g.xform = xs.map fun v => ((g.att.mulVec v).mul 1).add g.pos :=
    List.map_congr_left fun v _ => by ext <;> simp only [Frame3.xform, zeo] <;> ring
  rw [e] at s2
  have := C61_ident_similar hτ h1 h2 s1 hR one_pos g.pos s2 h3 hc hς hspread (by rwa [one_mul]) junk
  rwa [one_mul, mul_one] at this

/-- A scaled set: the frame found does not take the barycenter of `src` to that of `dest`. (The position is the
translation of the similarity transformation, the scale of which is not returned.) -/
theorem C61_ident_scale_wrong (hτ : 0 < τ) (h1 : src.WF) (h2 : dest.WF) (s1 : src.Shows xs) {R : Mat3 ℝ} (hR : R.IsRot) {k : ℝ} (hk : 2 ≤ k) (t : Vec3 ℝ)
    (s2 : dest.Shows (xs.map fun v => ((R.mulVec v).mul k).add t)) (h3 : 3 ≤ xs.length) {c : Vec3 ℝ} (hc : src.barycenter = some c)
    {ς : ℝ} (hς : 0 < ς) (hspread : ∀ x : Vec3 ℝ, x.sqrNorm = 1 → ς ≤ Spec.mean (fun v => (v.sub c).inner x ^ 2) xs)
    (hτς : 100 * τ ≤ (k * ς) ^ 2) (junk : Vec3 ℝ) :
    ∃ f, src.identFrame τ dest junk = some (.frame f) ∧
      c.sqrNorm / 4 ≤ ((f.xform c).sub (((R.mulVec c).mul k).add t)).sqrNorm := by
  have hk0 : 0 < k := by linarith
  obtain ⟨f, h4, h5, -, q, hq, hp⟩ := similar_aux hτ h1 h2 s1 hR.1 hk0 t s2 h3 hc hς hspread (by nlinarith) junk
  refine ⟨f, h4, ?_⟩
  set ε := τ / (k * ς) ^ 2 with hε
  have hε0 : 0 < ε := by positivity
  have hε1 : ε ≤ 1 / 100 := by rw [hε, div_le_iff₀ (by positivity)]; linarith
  have e : (f.xform c).sub (((R.mulVec c).mul k).add t) = (f.att.mulVec c).mul (1 - q) := by
    rw [Frame3.xform, hp]
    generalize f.att.mulVec c = w
    generalize R.mulVec c = w'
    ext <;> simp only [zeo] <;> ring
  have e2 : ((f.att.mulVec c).mul (1 - q)).sqrNorm = (q - 1) ^ 2 * (f.att.mulVec c).sqrNorm := by
    generalize f.att.mulVec c = w
    simp only [zeo]; ring
  rw [e, e2]
  have hq1 : 9 / 10 ≤ q - 1 := by
    have := (abs_le.1 hq).1
    nlinarith
  have hRc : (R.mulVec c).sqrNorm = c.sqrNorm := orth_norm hR.1 c
  set N := √c.sqrNorm with hN
  have hN0 : 0 ≤ N := Real.sqrt_nonneg _
  have hNN : N ^ 2 = c.sqrNorm := Real.sq_sqrt (Ident.sqrNorm_nonneg c)
  have a1 : ((R.mulVec c).sub (f.att.mulVec c)).sqrNorm ≤ (N / 10) ^ 2 := by
    have e3 : ((R.mulVec c).sub (f.att.mulVec c)).sqrNorm = ((f.att.mulVec c).sub (R.mulVec c)).sqrNorm := by
      generalize f.att.mulVec c = w
      generalize R.mulVec c = w'
      simp only [zeo]; ring
    rw [e3]
    refine (h5 c).trans ?_
    rw [← hNN]
    have : ε ^ 2 ≤ (1 / 100) ^ 2 := pow_le_pow_left₀ hε0.le hε1 2
    have := mul_le_mul_of_nonneg_right (show 6 * ε ^ 2 ≤ 1 / 10 ^ 2 by linarith) (sq_nonneg N)
    linarith
  set n' := √(f.att.mulVec c).sqrNorm with hn'
  have hn0 : 0 ≤ n' := Real.sqrt_nonneg _
  have hnn : n' ^ 2 = (f.att.mulVec c).sqrNorm := Real.sq_sqrt (Ident.sqrNorm_nonneg _)
  have a2 := Ident.add_le a1 hnn.ge (by positivity) hn0
  rw [show ((R.mulVec c).sub (f.att.mulVec c)).add (f.att.mulVec c) = R.mulVec c by ext <;> simp only [Vec3.sub, Vec3.add] <;> ring, hRc, ← hNN] at a2
  have a3 : N ≤ N / 10 + n' := by
    by_contra hlt
    push Not at hlt
    have : (N / 10 + n') ^ 2 < N ^ 2 := pow_lt_pow_left₀ hlt (by positivity) (by norm_num)
    linarith
  have a4 : (9 / 10 * N) ^ 2 ≤ n' ^ 2 := pow_le_pow_left₀ (by positivity) (by linarith) 2
  have a5 : (9 / 10 : ℝ) ^ 2 ≤ (q - 1) ^ 2 := pow_le_pow_left₀ (by norm_num) hq1 2
  rw [← hnn, ← hNN]
  nlinarith [sq_nonneg N, sq_nonneg n']

/-- A mirrored set: the attitude found is not a rotation. -/
theorem C61_ident_mirror_wrong (hτ : 0 < τ) (h1 : src.WF) (h2 : dest.WF) (s1 : src.Shows xs) {R : Mat3 ℝ} (hR : R.toMatrixᵀ * R.toMatrix = 1)
    (hdet : Matrix.det R.toMatrix = -1) {k : ℝ} (hk : 0 < k) (t : Vec3 ℝ)
    (s2 : dest.Shows (xs.map fun v => ((R.mulVec v).mul k).add t)) (h3 : 3 ≤ xs.length) {c : Vec3 ℝ} (hc : src.barycenter = some c)
    {ς : ℝ} (hς : 0 < ς) (hspread : ∀ x : Vec3 ℝ, x.sqrNorm = 1 → ς ≤ Spec.mean (fun v => (v.sub c).inner x ^ 2) xs)
    (hτς : 2 * τ < (k * ς) ^ 2) (junk : Vec3 ℝ) :
    ∃ f, src.identFrame τ dest junk = some (.frame f) ∧ ¬ f.att.IsRot := by
  obtain ⟨f, h4, h5, -⟩ := similar_aux hτ h1 h2 s1 hR hk t s2 h3 hc hς hspread (by linarith) junk
  refine ⟨f, h4, fun hA => ?_⟩
  set Q := R.toMatrixᵀ * f.att.toMatrix with hQ
  have hR' : R.toMatrix * R.toMatrixᵀ = 1 := mul_eq_one_comm.1 hR
  have hQQ : Qᵀ * Q = 1 := by
    rw [hQ, Matrix.transpose_mul, Matrix.transpose_transpose, Matrix.mul_assoc, ← Matrix.mul_assoc R.toMatrix, hR', Matrix.one_mul, hA.1]
  have hQd : Matrix.det Q = -1 := by rw [hQ, Matrix.det_mul, Matrix.det_transpose, hdet, hA.2]; norm_num
  have hd0 : Matrix.det (Q + 1) = 0 := by
    have e : Qᵀ * (Q + 1) = (Q + 1)ᵀ := by rw [Matrix.mul_add, hQQ, Matrix.mul_one, Matrix.transpose_add, Matrix.transpose_one, add_comm]
    have := congrArg Matrix.det e
    rw [Matrix.det_mul, Matrix.det_transpose, Matrix.det_transpose, hQd] at this
    linarith
  obtain ⟨x, hx0, hx⟩ := Matrix.exists_mulVec_eq_zero_iff.2 hd0
  have hx' : f.att.toMatrix.mulVec x = -(R.toMatrix.mulVec x) := by
    have e : R.toMatrix.mulVec ((Q + 1).mulVec x) = f.att.toMatrix.mulVec x + R.toMatrix.mulVec x := by
      rw [Matrix.add_mulVec, Matrix.mulVec_add, Matrix.one_mulVec, hQ, Matrix.mulVec_mulVec, ← Matrix.mul_assoc, hR', Matrix.one_mul]
    rw [hx, Matrix.mulVec_zero] at e
    exact eq_neg_of_add_eq_zero_left e.symm
  set w : Vec3 ℝ := ⟨x 0, x 1, x 2⟩ with hw
  have g0 := congrFun hx' 0; have g1 := congrFun hx' 1; have g2 := congrFun hx' 2
  simp [Matrix.mulVec, dotProduct, Fin.sum_univ_three, Mat3.toMatrix] at g0 g1 g2
  have hfw : f.att.mulVec w = (R.mulVec w).rev := by
    ext <;> simp only [zeo, hw] <;> linarith
  have hw0 : 0 < w.sqrNorm := pos_of_ne hx0
  have h7 := h5 w
  rw [hfw] at h7
  have e4 : ((R.mulVec w).rev.sub (R.mulVec w)).sqrNorm = 4 * (R.mulVec w).sqrNorm := by
    generalize R.mulVec w = v
    simp only [zeo]; ring
  rw [e4, orth_norm hR] at h7
  set ε := τ / (k * ς) ^ 2 with hε
  have hε0 : 0 < ε := by positivity
  have hε1 : ε ≤ 1 / 2 := by rw [hε, div_le_iff₀ (by positivity)]; linarith
  have : ε ^ 2 ≤ (1 / 2) ^ 2 := pow_le_pow_left₀ hε0.le hε1 2
  have := mul_le_mul_of_nonneg_right (show 6 * ε ^ 2 ≤ 3 by linarith) hw0.le
  linarith

/-- Coplanar points in `src` or in `dest`: the attitude found is not a rotation. -/
theorem C61_ident_coplanar_wrong (hτ : 0 < τ) (hτ1 : τ < 1) (h1 : src.WF) (h2 : dest.WF) (s1 : src.Shows xs) (s2 : dest.Shows ys)
    (hl : xs.length = ys.length) (h3 : 3 ≤ xs.length) {n : Vec3 ℝ} (hn : n ≠ Vec3.zero) {d : ℝ}
    (hpl : (∀ v ∈ xs, n.inner v = d) ∨ (∀ v ∈ ys, n.inner v = d)) (junk : Vec3 ℝ) :
    ∃ att : Mat3 ℝ, ¬ att.IsRot ∧
      (src.identFrame τ dest junk = some (.nan att) ∨ ∃ p, src.identFrame τ dest junk = some (.frame ⟨p, att⟩)) := by
  have key : ∀ {zs : List (Vec3 ℝ)} {D : Data (Vec3 ℝ)} (_ : D.WF) (_ : D.Shows zs) (_ : zs ≠ []), ∀ c, D.barycenter = some c → (∀ v ∈ zs, n.inner v = d) →
      n.inner c = d := by
    intro zs D hD hS hz c hc hv
    obtain ⟨c0, hc0, hm, -⟩ := C60_barycenter hD hS hz
    rw [hc] at hc0
    obtain rfl := Option.some.inj hc0
    have e0 : c.x = Spec.mean Vec3.x zs := hm 0
    have e1 : c.y = Spec.mean Vec3.y zs := hm 1
    have e2 : c.z = Spec.mean Vec3.z zs := hm 2
    have : Spec.mean (fun v => n.x * v.x + 1 * (n.y * v.y + n.z * v.z)) zs = d := by
      have e : zs.map (fun v => n.x * v.x + 1 * (n.y * v.y + n.z * v.z)) = zs.map fun _ => d * 1 :=
        List.map_congr_left fun v hv' => by rw [← hv v hv']; simp only [zeo]; ring
      have := Spec.mean_const d hz
      unfold Spec.mean at this ⊢
      rw [e]; simpa using this
    rw [Spec.mean_lin, Spec.mean_lin, ← e0, ← e1, ← e2] at this
    rw [← this]; simp only [zeo]; ring
  have hx : xs ≠ [] := by rintro rfl; simp at h3
  have hy : ys ≠ [] := by rintro rfl; simp [hl] at h3
  obtain ⟨c, hc, -⟩ := C60_barycenter h1 s1 hx
  obtain ⟨c', hc', -⟩ := C60_barycenter h2 s2 hy
  obtain ⟨M, hM, hid⟩ := ident_eq (τ := τ) h1 h2 s1 s2 hl h3 hc hc' junk
  have hin : ∀ {a b : Vec3 ℝ}, n.inner a = d → n.inner b = d → (a.sub b).inner n = 0 := by
    intro a b ha hb
    have : (a.sub b).inner n = n.inner a - n.inner b := by simp only [zeo]; ring
    rw [this, ha, hb, sub_self]
  have hdet : Matrix.det M.toMatrix = 0 := by
    have hn' : n.toFin ≠ 0 := by
      intro h
      apply hn
      ext
      · exact congrFun h 0
      · exact congrFun h 1
      · exact congrFun h 2
    rcases hpl with hv | hv
    · have hcd := key h1 s1 hx c hc hv
      have h0 : ∀ x, n.inner (M.mulVec x) = 0 := by
        intro x
        rw [hM, List.sum_eq_zero, zero_div]
        intro z hz
        obtain ⟨ab, hab, rfl⟩ := List.mem_map.1 hz
        rw [hin (hv _ (List.of_mem_zip hab).1) hcd, zero_mul]
      refine Matrix.exists_vecMul_eq_zero_iff.1 ⟨n.toFin, hn', ?_⟩
      have a0 := h0 .ex; have a1 := h0 .ey; have a2 := h0 .ez
      simp only [zeo] at a0 a1 a2
      funext i
      fin_cases i <;> simp [Matrix.vecMul, dotProduct, Fin.sum_univ_three, Mat3.toMatrix, Vec3.toFin] <;> linarith
    · have hcd := key h2 s2 hy c' hc' hv
      have h0 : ∀ y : Vec3 ℝ, y.inner (M.mulVec n) = 0 := by
        intro y
        rw [hM, List.sum_eq_zero, zero_div]
        intro z hz
        obtain ⟨ab, hab, rfl⟩ := List.mem_map.1 hz
        rw [hin (hv _ (List.of_mem_zip hab).2) hcd, mul_zero]
      refine Matrix.exists_mulVec_eq_zero_iff.1 ⟨n.toFin, hn', ?_⟩
      have a0 := h0 .ex; have a1 := h0 .ey; have a2 := h0 .ez
      simp only [zeo] at a0 a1 a2
      funext i
      fin_cases i <;> simp [Matrix.mulVec, dotProduct, Fin.sum_univ_three, Mat3.toMatrix, Vec3.toFin] <;> linarith
  obtain ⟨u, val, k0, k1, k2, sv, v, hsvd, hu, -⟩ := Eig.svd_spec hτ M
  have hv := C59_svd_singular_wrong hτ hτ1 M hdet _ _ _ _ hsvd
  refine ⟨v.mulMatT u, fun hA => hv ?_, ?_⟩
  · have hAt : (v.mulMatT u).toMatrix = v.toMatrix * u.toMatrixᵀ := (C06_mat3_products v u n).2.2.1
    have hA1 := hA.1
    rw [hAt, Matrix.transpose_mul, Matrix.transpose_transpose] at hA1
    have hu' : u.toMatrixᵀ * u.toMatrix = 1 := hu.1
    calc v.toMatrixᵀ * v.toMatrix = (u.toMatrixᵀ * u.toMatrix) * (v.toMatrixᵀ * v.toMatrix) * (u.toMatrixᵀ * u.toMatrix) := by rw [hu', Matrix.one_mul, Matrix.mul_one]
      _ = u.toMatrixᵀ * (u.toMatrix * v.toMatrixᵀ * (v.toMatrix * u.toMatrixᵀ)) * u.toMatrix := by simp only [Matrix.mul_assoc]
      _ = 1 := by rw [hA1, Matrix.mul_one, hu']
  · rw [hsvd] at hid
    simp only [Option.map_some] at hid
    split at hid
    · exact .inl hid
    · exact .inr ⟨_, hid⟩

/-- Three points, the documented minimum, never give a rotation. -/
theorem C61_ident_three_points_wrong (hτ : 0 < τ) (hτ1 : τ < 1) (h1 : src.WF) (h2 : dest.WF) {a b c a' b' c' : Vec3 ℝ} (s1 : src.Shows [a, b, c])
    (s2 : dest.Shows [a', b', c']) (junk : Vec3 ℝ) :
    ∃ att : Mat3 ℝ, ¬ att.IsRot ∧
      (src.identFrame τ dest junk = some (.nan att) ∨ ∃ p, src.identFrame τ dest junk = some (.frame ⟨p, att⟩)) := by
  obtain ⟨n, hn0, hn⟩ := Matrix.exists_mulVec_eq_zero_iff.2 (show Matrix.det !![b.x - a.x, b.y - a.y, b.z - a.z; c.x - a.x, c.y - a.y, c.z - a.z; 0, 0, 0] = (0 : ℝ) by
    simp [Matrix.det_fin_three])
  have e0 := congrFun hn 0; have e1 := congrFun hn 1
  simp [Matrix.mulVec, dotProduct, Fin.sum_univ_three] at e0 e1
  refine C61_ident_coplanar_wrong hτ hτ1 h1 h2 s1 s2 rfl le_rfl (n := ⟨n 0, n 1, n 2⟩) ?_ (d := n 0 * a.x + n 1 * a.y + n 2 * a.z) (.inl ?_) junk
  · intro h
    apply hn0
    have f0 : n 0 = 0 := congrArg Vec3.x h
    have f1 : n 1 = 0 := congrArg Vec3.y h
    have f2 : n 2 = 0 := congrArg Vec3.z h
    funext i; fin_cases i <;> assumption
  · intro v hv
    simp only [List.mem_cons, List.not_mem_nil, or_false] at hv
    rcases hv with rfl | rfl | rfl <;> simp only [zeo] <;> linarith

/-! ## Normal vectors -/

/-- **C61** (`_zVec3DDataNormalVecFromVicinity`): a unit vector across which the points about `point` spread least
(within twice the tolerance), pointing away from `center`. -/
theorem C61_normal_vicinity (hτ : 0 < τ) {vic : Data (Vec3 ℝ)} (h : vic.WF) (hs : vic.Shows xs) (hx : xs ≠ []) (point center old : Vec3 ℝ) :
    let n := vic.normalFromVicinity τ point center old
    n.sqrNorm = 1 ∧ 0 ≤ n.inner (point.sub center) ∧ ∀ x : Vec3 ℝ, x.sqrNorm = 1 →
      Spec.mean (fun v => (v.sub point).inner n ^ 2) xs ≤ Spec.mean (fun v => (v.sub point).inner x ^ 2) xs + 2 * τ := by
  obtain ⟨n, hn, h1, h2⟩ := C60_meanNormal hτ h hs hx point
  simp only [normalFromVicinity, hn, Option.getD_some]
  split
  · rename_i hneg
    have e : n.rev.inner (point.sub center) = -(n.inner (point.sub center)) := by simp only [zeo]; ring
    refine ⟨by rw [← h1]; simp only [zeo]; ring, by rw [e]; linarith, fun x hx1 => ?_⟩
    have e : ∀ v : Vec3 ℝ, (v.sub point).inner n.rev ^ 2 = (v.sub point).inner n ^ 2 := by intro v; simp only [zeo]; ring
    rw [Spec.mean_congr e]
    exact h2 x hx1
  · rename_i hpos
    exact ⟨h1, not_lt.1 hpos, h2⟩

private theorem lst_shows (zs : List (Vec3 ℝ)) : (lst false zs none : Data (Vec3 ℝ)).WF ∧ (lst false zs none : Data (Vec3 ℝ)).Shows zs := by
  have h : (lst false zs none : Data (Vec3 ℝ)).WF := by intro k hk; cases hk
  exact ⟨h, h.shows⟩

private theorem foldl_normals (F : Vec3 ℝ → Vec3 ℝ → Vec3 ℝ) (P : Vec3 ℝ → Vec3 ℝ → Prop) : ∀ (l acc : List (Vec3 ℝ)) (old : Vec3 ℝ), (∀ v ∈ l, ∀ o, P v (F o v)) →
    ∃ ns, (l.foldl (fun (s : List (Vec3 ℝ) × Vec3 ℝ) v => (s.1 ++ [F s.2 v], F s.2 v)) (acc, old)).1 = acc ++ ns ∧ List.Forall₂ P l ns := by
  intro l
  induction l with
  | nil => intro acc old _; exact ⟨[], by simp, .nil⟩
  | cons v l ih =>
    intro acc old hP
    obtain ⟨ns, h1, h2⟩ := ih (acc ++ [F old v]) (F old v) (fun w hw => hP w (List.mem_cons_of_mem _ hw))
    exact ⟨F old v :: ns, by rw [List.foldl_cons, h1]; simp, .cons (hP v List.mem_cons_self old) h2⟩

/-- **C61** (`zVec3DDataNormalVec_Tree`): one vector for each point, in the order of the points; each is a unit
vector pointing away from the barycenter, across which the points nearer than `radius` spread least (within twice
the tolerance). -/
theorem C61_normalVecTree (hτ : 0 < τ) {d : Data (Vec3 ℝ)} (h : d.WF) (hs : d.Shows xs) {radius : ℝ} (hr : 0 < radius) (old junk : Vec3 ℝ) {c : Vec3 ℝ}
    (hc : d.barycenter = some c) :
    List.Forall₂ (fun p n : Vec3 ℝ => n.sqrNorm = 1 ∧ 0 ≤ n.inner (p.sub c) ∧ ∀ x : Vec3 ℝ, x.sqrNorm = 1 →
      Spec.mean (fun v => (v.sub p).inner n ^ 2) (xs.filter fun q => decide (Spec.ed p q < radius)) ≤
        Spec.mean (fun v => (v.sub p).inner x ^ 2) (xs.filter fun q => decide (Spec.ed p q < radius)) + 2 * τ) xs (d.normalVecTree τ radius old junk) := by
  have k : d.contents = xs := C35_shows_unique d _ _ h.shows hs
  have ka : d.toAddrList = xs := C35_shows_unique d _ _ (C35_toAddrList d h) hs
  unfold normalVecTree
  simp only [hc, Option.getD_some, (h.forEach _ _).1, k, ka]
  obtain ⟨ns, h1, h2⟩ := foldl_normals (fun o v => normalFromVicinity τ (lst false ((Kd.build xs).vicinity v radius) none) v c o)
    (fun p n : Vec3 ℝ => n.sqrNorm = 1 ∧ 0 ≤ n.inner (p.sub c) ∧ ∀ x : Vec3 ℝ, x.sqrNorm = 1 →
      Spec.mean (fun v => (v.sub p).inner n ^ 2) (xs.filter fun q => decide (Spec.ed p q < radius)) ≤
        Spec.mean (fun v => (v.sub p).inner x ^ 2) (xs.filter fun q => decide (Spec.ed p q < radius)) + 2 * τ) xs [] old (by
      intro v hv o
      have hp := C30_vicinity xs v radius hr.le
      have hne : (Kd.build xs).vicinity v radius ≠ [] := by
        have : v ∈ (Kd.build xs).vicinity v radius := (C30_mem xs v v radius hr.le).2 ⟨hv, by simpa [Spec.ed, Spec.sqd] using hr⟩
        exact List.ne_nil_of_mem this
      obtain ⟨a, b, e⟩ := C61_normal_vicinity hτ (lst_shows _).1 (lst_shows _).2 hne v c o
      have hm : ∀ f : Vec3 ℝ → ℝ, Spec.mean f ((Kd.build xs).vicinity v radius) = Spec.mean f (xs.filter fun q => decide (Spec.ed v q < radius)) := by
        intro f
        unfold Spec.mean
        rw [(hp.map f).sum_eq, hp.length_eq]
      refine ⟨a, b, fun x hx => ?_⟩
      have := e x hx
      rwa [hm, hm] at this)
  rw [List.nil_append] at h1
  rw [h1]
  exact h2

/-- With a radius of zero no vector is computed: what is put out is an uninitialised variable, possibly reversed. -/
theorem C61_normal_zero_radius {d : Data (Vec3 ℝ)} (h : d.WF) (old junk : Vec3 ℝ) :
    ∀ n ∈ d.normalVecTree τ 0 old junk, n = old ∨ n = old.rev := by
  have ka : ∀ v, (Kd.build d.toAddrList).vicinity v 0 = [] := by
    intro v
    refine List.eq_nil_iff_forall_not_mem.2 fun q hq => ?_
    have := ((C30_mem _ v q 0 le_rfl).1 hq).2
    have h0 : 0 ≤ Spec.ed v q := Real.sqrt_nonneg _
    linarith
  have he : ∀ v c, (lst false ([] : List (Vec3 ℝ)) none).normalFromVicinity τ v c = fun o => if o.inner (v.sub c) < 0 then o.rev else o := by
    intro v c
    funext o
    rw [normalFromVicinity, (C60_empty (τ := τ) (lst_shows []).1 (lst_shows []).2 v v).2.2.2.2.2.2.1]; rfl
  unfold normalVecTree
  simp only [(h.forEach _ _).1, ka, he]
  have hrr : old.rev.rev = old := by ext <;> simp [zeo]
  have : ∀ (l acc : List (Vec3 ℝ)) (o c : Vec3 ℝ), (∀ n ∈ acc, n = old ∨ n = old.rev) → (o = old ∨ o = old.rev) →
      ∀ n ∈ (l.foldl (fun (s : List (Vec3 ℝ) × Vec3 ℝ) v => (s.1 ++ [if s.2.inner (v.sub c) < 0 then s.2.rev else s.2], if s.2.inner (v.sub c) < 0 then s.2.rev else s.2)) (acc, o)).1,
        n = old ∨ n = old.rev := by
    intro l
    induction l with
    | nil => intro acc o c h1 _ n hn; exact h1 n hn
    | cons v l ih =>
      intro acc o c h1 h2
      have h3 : (if o.inner (v.sub c) < 0 then o.rev else o) = old ∨ (if o.inner (v.sub c) < 0 then o.rev else o) = old.rev := by
        split
        · rcases h2 with rfl | rfl
          · exact .inr rfl
          · exact .inl hrr
        · exact h2
      rw [List.foldl_cons]
      refine ih _ _ c ?_ h3
      intro n hn
      rcases List.mem_append.1 hn with hn | hn
      · exact h1 n hn
      · rw [List.mem_singleton.1 hn]; exact h3
  exact this _ [] old _ (by simp) (.inl rfl)

/-! ## Iterative closest point -/

private theorem sample_fold (tree : Kd) (f : Frame3 ℝ) {rate : ℝ} {rnd : ℕ → ℝ} (hrate : ∀ i, rnd i ≤ rate) :
    ∀ (l : List (Vec3 ℝ)) (a : ℝ × List (Vec3 ℝ) × List (Vec3 ℝ)) (i : ℕ) s,
    (l.foldl (fun (s : Option (ℝ × List (Vec3 ℝ) × List (Vec3 ℝ)) × ℕ) po =>
      (if rnd s.2 > rate then s.1
       else s.1.bind fun a => (tree.nn (f.xform po)).map fun h =>
         (if h.d > a.1 then h.d else a.1, a.2.1 ++ [po], a.2.2 ++ [h.pt]), s.2 + 1)) (some a, i)).1 = some s →
      a.1 ≤ s.1 ∧ ∀ po ∈ l, ∃ h, tree.nn (f.xform po) = some h ∧ h.d ≤ s.1 := by
  intro l
  induction l with
  | nil =>
    intro a i s hs
    obtain rfl := Option.some.inj hs
    exact ⟨le_rfl, by simp⟩
  | cons v l ih =>
    intro a i s hs
    rw [List.foldl_cons] at hs
    simp only [if_neg (not_lt.2 (hrate i)), Option.bind_some] at hs
    cases hn : tree.nn (f.xform v) with
    | none =>
      exfalso
      rw [hn] at hs
      have : ∀ (l : List (Vec3 ℝ)) i, (l.foldl (fun (s : Option (ℝ × List (Vec3 ℝ) × List (Vec3 ℝ)) × ℕ) po =>
          (if rnd s.2 > rate then s.1
           else s.1.bind fun a => (tree.nn (f.xform po)).map fun h =>
             (if h.d > a.1 then h.d else a.1, a.2.1 ++ [po], a.2.2 ++ [h.pt]), s.2 + 1)) (none, i)).1 = none := by
        intro l
        induction l with
        | nil => intro i; rfl
        | cons w l ih' => intro i; rw [List.foldl_cons]; simp only [Option.bind_none, ite_self]; exact ih' _
      rw [Option.map_none, this] at hs
      cases hs
    | some h =>
      rw [hn] at hs
      obtain ⟨h1, h2⟩ := ih _ _ _ hs
      dsimp only at h1
      have h3 : a.1 ≤ s.1 ∧ h.d ≤ s.1 := by
        split at h1 <;> constructor <;> linarith
      refine ⟨h3.1, fun po hpo => ?_⟩
      rcases List.mem_cons.1 hpo with rfl | hpo
      · exact ⟨h, hn, h3.2⟩
      · exact h2 po hpo

private theorem loop_break (tree : Kd) (rate tol : ℝ) (rnd : ℕ → ℕ → ℝ) (junk : Vec3 ℝ) : ∀ (n : ℕ) (g f : Frame3 ℝ),
    icpLoop τ tree rate tol rnd src junk n g = some (f, true) → ∃ i < n, ∃ s, (icpSample tree f rate (rnd i) src).1 = some s ∧ s.1 < tol := by
  intro n
  induction n with
  | zero => intro g f h; simp [icpLoop] at h
  | succ n ih =>
    intro g f h
    rw [icpLoop] at h
    cases hs : (icpSample tree g rate (rnd n) src).1 with
    | none => rw [hs] at h; cases h
    | some s =>
      rw [hs, Option.bind_some] at h
      split at h
      · rename_i ht
        obtain ⟨rfl, -⟩ := Prod.mk.inj (Option.some.inj h)
        exact ⟨n, Nat.lt_succ_self n, s, hs, ht⟩
      · have : ∀ g', icpLoop τ tree rate tol rnd src junk n g' = some (f, true) → ∃ i < n + 1, ∃ s, (icpSample tree f rate (rnd i) src).1 = some s ∧ s.1 < tol := by
          intro g' hg
          obtain ⟨i, hi, r⟩ := ih g' f hg
          exact ⟨i, hi.trans (Nat.lt_succ_self n), r⟩
        split at h
        · cases h
        · exact this _ h
        · exact this _ h
        · cases h

/-- **C61** (`zVec3DDataICP`): if every point is sampled and the iteration ends because the error is below `tol`, the
frame found takes every point of `src` to within `tol` of some point of `dest`. -/
theorem C61_icp (h1 : src.WF) (h2 : dest.WF) (s1 : src.Shows xs) (s2 : dest.Shows ys) (hy : ys ≠ []) {rate tol : ℝ} {rnd : ℕ → ℕ → ℝ}
    (hrate : ∀ i j, rnd i j ≤ rate) {junk1 junk2 : Vec3 ℝ} {f : Frame3 ℝ} (h : src.icp τ dest rate tol rnd junk1 junk2 = some (f, true)) :
    ∀ v ∈ xs, ∃ w ∈ ys, Spec.ed (f.xform v) w < tol := by
  have k1 : src.contents = xs := C35_shows_unique src _ _ h1.shows s1
  have k2 : dest.toAddrList = ys := C35_shows_unique dest _ _ (C35_toAddrList dest h2) s2
  unfold icp at h
  rw [k2] at h
  obtain ⟨i, -, s, hs, ht⟩ := loop_break _ _ _ _ _ _ _ _ h
  unfold icpSample at hs
  rw [(h1.forEach _ _).1, k1] at hs
  obtain ⟨-, h4⟩ := sample_fold _ f (hrate i) _ _ _ _ hs
  intro v hv
  obtain ⟨hit, hn, hd⟩ := h4 v hv
  obtain ⟨j, q, hq, hmem, -⟩ := C29_nn ys hy (f.xform v)
  rw [hn] at hq
  obtain rfl := Option.some.inj hq
  exact ⟨q, List.mem_of_getElem? hmem, hd.trans_lt ht⟩

private theorem sample_zero {ys : List (Vec3 ℝ)} (f : Frame3 ℝ) (rate : ℝ) (rnd : ℕ → ℝ) :
    ∀ (l : List (Vec3 ℝ)) (a : ℝ × List (Vec3 ℝ) × List (Vec3 ℝ)) (i : ℕ), (∀ v ∈ l, f.xform v ∈ ys) → 0 ≤ a.1 →
    ∃ s, (l.foldl (fun (s : Option (ℝ × List (Vec3 ℝ) × List (Vec3 ℝ)) × ℕ) po =>
      (if rnd s.2 > rate then s.1
       else s.1.bind fun a => ((Kd.build ys).nn (f.xform po)).map fun h =>
         (if h.d > a.1 then h.d else a.1, a.2.1 ++ [po], a.2.2 ++ [h.pt]), s.2 + 1)) (some a, i)).1 = some s ∧ s.1 = a.1 := by
  intro l
  induction l with
  | nil => intro a i _ _; exact ⟨a, rfl, rfl⟩
  | cons v l ih =>
    intro a i hm ha
    have hl : ∀ w ∈ l, f.xform w ∈ ys := fun w hw => hm w (List.mem_cons_of_mem _ hw)
    rw [List.foldl_cons]
    by_cases hr : rnd i > rate
    · simp only [if_pos hr]; exact ih a _ hl ha
    · simp only [if_neg hr, Option.bind_some]
      have hv := hm v List.mem_cons_self
      obtain ⟨j, q, hq, -, hmin⟩ := C29_nn ys (List.ne_nil_of_mem hv) (f.xform v)
      have hz : Spec.ed (f.xform v) q ≤ 0 := (hmin _ hv).trans (by simp [Spec.ed, Spec.sqd])
      rw [hq, Option.map_some]
      have : ¬ (Spec.ed (f.xform v) q > a.1) := by linarith
      simp only [if_neg this]
      exact ih _ _ hl ha

/-- **C61** (`zVec3DDataICP`): a mere translation is found exactly, whatever points are sampled. -/
theorem C61_icp_translation (h1 : src.WF) (h2 : dest.WF) (s1 : src.Shows xs) (hx : xs ≠ []) (t : Vec3 ℝ) (s2 : dest.Shows (xs.map fun v => v.add t))
    {rate tol : ℝ} (htol : 0 < tol) (rnd : ℕ → ℕ → ℝ) (junk1 junk2 : Vec3 ℝ) :
    src.icp τ dest rate tol rnd junk1 junk2 = some (⟨t, Mat3.ident⟩, true) := by
  have k1 : src.contents = xs := C35_shows_unique src _ _ h1.shows s1
  have k2 : dest.toAddrList = xs.map fun v => v.add t := C35_shows_unique dest _ _ (C35_toAddrList dest h2) s2
  obtain ⟨c, hc, hm, -⟩ := C60_barycenter h1 s1 hx
  obtain ⟨c', hc', hm', -⟩ := C60_barycenter h2 s2 (by simpa using hx)
  have hcc : c'.sub c = t := by
    have mm : ∀ i, c'.toFin i = c.toFin i + t.toFin i := by
      intro i
      rw [hm', hm]
      have e : Spec.mean (fun v : Vec3 ℝ => v.toFin i) (xs.map fun v => v.add t) = Spec.mean (fun v : Vec3 ℝ => 1 * v.toFin i + t.toFin i * 1) xs := by
        unfold Spec.mean
        rw [List.map_map, List.length_map]
        congr 2
        refine List.map_congr_left fun v _ => ?_
        rcases (by decide : ∀ i : Fin 3, i = 0 ∨ i = 1 ∨ i = 2) i with rfl | rfl | rfl <;> simp [Vec3.toFin, zeo]
      rw [e, Spec.mean_lin, Spec.mean_const _ hx]; ring
    have e0 : c'.x = c.x + t.x := mm 0
    have e1 : c'.y = c.y + t.y := mm 1
    have e2 : c'.z = c.z + t.z := mm 2
    ext <;> simp only [Vec3.sub] <;> linarith
  have hinit : icpInit src dest junk1 junk2 = ⟨t, Mat3.ident⟩ := by rw [icpInit, hc, hc']; simp only [Option.getD_some, hcc]
  unfold icp
  rw [hinit, k2, icpLoop]
  unfold icpSample
  rw [(h1.forEach _ _).1, k1]
  obtain ⟨s, hs, hs0⟩ := sample_zero (ys := xs.map fun v => v.add t) ⟨t, Mat3.ident⟩ rate (rnd 199) xs (0, [], []) 0 (by
    intro v hv
    refine List.mem_map.2 ⟨v, hv, ?_⟩
    ext <;> simp only [Frame3.xform, zeo] <;> ring) le_rfl
  rw [hs, Option.bind_some, if_pos (by rw [hs0]; exact htol)]

/-! ## The hypotheses can be met -/

/-- Six points at distance three from the origin: variance three in every direction. -/
example : ∃ (xs : List (Vec3 ℝ)) (src dest : Data (Vec3 ℝ)) (c : Vec3 ℝ), src.WF ∧ dest.WF ∧ src.Shows xs ∧ 3 ≤ xs.length ∧
    dest.Shows (xs.map (⟨⟨1, 2, 3⟩, ⟨⟨0, 1, 0⟩, ⟨-1, 0, 0⟩, ⟨0, 0, 1⟩⟩⟩ : Frame3 ℝ).xform) ∧ src.barycenter = some c ∧
    (⟨⟨0, 1, 0⟩, ⟨-1, 0, 0⟩, ⟨0, 0, 1⟩⟩ : Mat3 ℝ).IsRot ∧
    ∀ x : Vec3 ℝ, x.sqrNorm = 1 → 3 ≤ Spec.mean (fun v => (v.sub c).inner x ^ 2) xs := by
  set xs : List (Vec3 ℝ) := [⟨4, 0, 0⟩, ⟨-2, 0, 0⟩, ⟨1, 3, 0⟩, ⟨1, -3, 0⟩, ⟨1, 0, 3⟩, ⟨1, 0, -3⟩] with hxs
  obtain ⟨c, hc, hm, -⟩ := C60_barycenter (lst_shows xs).1 (lst_shows xs).2 (by simp [hxs])
  have e0 : c.x = 1 := by
    have : c.x = Spec.mean Vec3.x xs := hm 0
    rw [this, hxs]; simp [Spec.mean]; norm_num
  have e1 : c.y = 0 := by
    have : c.y = Spec.mean Vec3.y xs := hm 1
    rw [this, hxs]; simp [Spec.mean]
  have e2 : c.z = 0 := by
    have : c.z = Spec.mean Vec3.z xs := hm 2
    rw [this, hxs]; simp [Spec.mean]
  refine ⟨xs, lst false xs none, lst false (xs.map _) none, c, (lst_shows _).1, (lst_shows _).1, (lst_shows _).2, by simp [hxs], (lst_shows _).2, hc, ?_, ?_⟩
  · rw [Mat3.isRot_iff]; norm_num [zeo]
  · intro x hx
    have hx' : x.x * x.x + x.y * x.y + x.z * x.z = 1 := hx
    rw [hxs]
    simp [Spec.mean, Vec3.sub, Vec3.inner, e0, e1, e2]
    nlinarith

end Zeo

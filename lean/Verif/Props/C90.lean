import Verif.Model.SphereFit
import Verif.Spec.SphereFit
import Verif.Props.C60
import Mathlib.Analysis.Calculus.Deriv.Pow
import Mathlib.Analysis.Calculus.Deriv.Add
import Mathlib.Analysis.Calculus.Deriv.Mul

/-! # C90: fitting a sphere to points -/

namespace Zeo
open Data
noncomputable section
variable {d : Data (Vec3 ℝ)} {xs : List (Vec3 ℝ)}

private theorem forEach90 {σ : Type*} (f : σ → Vec3 ℝ → σ) (s : σ) (h : d.WF) (hs : d.Shows xs) :
    (d.forEach f s).2 = xs.foldl f s := by
  rw [(h.forEach f s).1, C35_shows_unique d _ _ h.shows hs]

private theorem foldl_app {α β : Type*} (g : α → β) : ∀ (xs : List α) (l : List β),
    xs.foldl (fun l v => l ++ [g v]) l = l ++ xs.map g
  | [], l => by simp
  | a :: t, l => by rw [List.foldl_cons, foldl_app g t]; simp

private theorem system_eq (h : d.WF) (hs : d.Shows xs) (s : Sphere3 ℝ) :
    SphereFit.system d s = xs.map fun v => ((v.sub s.center, s.radius), v.sqrDist s.center - s.radius * s.radius) := by
  rw [SphereFit.system, forEach90 _ _ h hs, foldl_app]; rfl

/-- The correction of one iteration from `s` when the points lie on the sphere about `q`. -/
private def corr (q : Vec3 ℝ) (R : ℝ) (s : Sphere3 ℝ) : Vec3 ℝ × ℝ :=
  ((q.sub s.center).mul 2, (R ^ 2 - s.radius ^ 2 - Spec.sqd q s.center) / s.radius)

private theorem solve_eq {solve : List ((Vec3 ℝ × ℝ) × ℝ) → Vec3 ℝ × ℝ} (hv : Spec.Solves solve) (h : d.WF)
    (hs : d.Shows xs) {q : Vec3 ℝ} {R : ℝ} (ho : Spec.OnSphere q R xs) (hn : Spec.NotCoplanar xs) (hx : xs ≠ []) (s : Sphere3 ℝ)
    (hr : 0 < s.radius) : solve (SphereFit.system d s) = corr q R s := by
  have hne := hr.ne'
  have hc : ∀ p ∈ SphereFit.system d s, Spec.lhs p.1 (corr q R s) = p.2 := by
    intro p hp
    rw [system_eq h hs, List.mem_map] at hp
    obtain ⟨v, hv', rfl⟩ := hp
    have := ho v hv'
    simp only [Spec.lhs, corr, Spec.sqd, zeo]
    rw [mul_div_cancel₀ _ hne]
    linear_combination -this
  have hg := hv _ ⟨_, hc⟩
  set x := solve (SphereFit.system d s)
  have hd : ∀ v ∈ xs, Spec.lhs (v.sub s.center, s.radius) x = Spec.lhs (v.sub s.center, s.radius) (corr q R s) := by
    intro v hv'
    have hm : ((v.sub s.center, s.radius), v.sqrDist s.center - s.radius * s.radius) ∈ SphereFit.system d s := by
      rw [system_eq h hs]; exact List.mem_map.2 ⟨v, hv', rfl⟩
    rw [hg _ hm, hc _ hm]
  set y := corr q R s
  obtain ⟨a0, b0, c0⟩ := hn (x.1.x - y.1.x) (x.1.y - y.1.y) (x.1.z - y.1.z)
    ((x.1.x - y.1.x) * s.center.x + (x.1.y - y.1.y) * s.center.y + (x.1.z - y.1.z) * s.center.z - s.radius * (x.2 - y.2)) (by
      intro v hv'
      have := hd v hv'
      simp only [Spec.lhs, Vec3.sub] at this
      linear_combination this)
  obtain ⟨v, t, rfl⟩ := List.exists_cons_of_ne_nil hx
  have h2 := hd v (by simp)
  simp only [Spec.lhs, Vec3.sub] at h2
  have h3 : s.radius * (x.2 - y.2) = 0 := by
    linear_combination h2 - (v.x - s.center.x) * a0 - (v.y - s.center.y) * b0 - (v.z - s.center.z) * c0
  have h4 : x.2 - y.2 = 0 := by
    rcases mul_eq_zero.1 h3 with h | h
    · exact absurd h hne
    · exact h
  refine Prod.ext ?_ (by linarith)
  ext <;> linarith

/-- Heron's rule for the square root of `R²`. -/
private def heron (R r : ℝ) : ℝ := (r + R ^ 2 / r) / 2

private theorem heron_ge {R r : ℝ} (hr : 0 < r) : R ≤ heron R r ∧ heron R r - R = (r - R) ^ 2 / (2 * r) := by
  have e : heron R r - R = (r - R) ^ 2 / (2 * r) := by unfold heron; field_simp; ring
  refine ⟨?_, e⟩
  have : 0 ≤ (r - R) ^ 2 / (2 * r) := by positivity
  linarith

private theorem heron_half {R r : ℝ} (hR : 0 < R) (hr : R ≤ r) : heron R r - R ≤ (r - R) / 2 := by
  have h0 : 0 < r := by linarith
  rw [(heron_ge h0).2, div_le_div_iff₀ (by positivity) (by norm_num)]
  nlinarith

private theorem heron_iter {R : ℝ} (hR : 0 < R) : ∀ (n : ℕ) (r : ℝ), R ≤ r →
    R ≤ (heron R)^[n] r ∧ (heron R)^[n] r - R ≤ (r - R) / 2 ^ n
  | 0, r, h => by simpa using h
  | n + 1, r, h => by
    rw [Function.iterate_succ_apply]
    have h0 : 0 < r := by linarith
    obtain ⟨i1, i2⟩ := heron_iter hR n (heron R r) (heron_ge h0).1
    refine ⟨i1, i2.trans ?_⟩
    rw [pow_succ', ← div_div]
    exact div_le_div_of_nonneg_right (heron_half hR h) (by positivity)

variable {solve : List ((Vec3 ℝ × ℝ) × ℝ) → Vec3 ℝ × ℝ} {tiny : Vec3 ℝ × ℝ → Bool}

/-- What holds when the iteration stops because the correction is tiny. -/
private def Stop (τ : ℝ) (q : Vec3 ℝ) (R : ℝ) (s : Sphere3 ℝ) : Prop :=
  0 < s.radius ∧ |s.center.x - q.x| ≤ τ / 2 ∧ |s.center.y - q.y| ≤ τ / 2 ∧ |s.center.z - q.z| ≤ τ / 2 ∧
    |(R ^ 2 - s.radius ^ 2 - Spec.sqd q s.center) / s.radius| ≤ τ

private theorem stop_of {τ : ℝ} (ht : ∀ x, tiny x = true → |x.1.x| ≤ τ ∧ |x.1.y| ≤ τ ∧ |x.1.z| ≤ τ ∧ |x.2| ≤ τ)
    {q : Vec3 ℝ} {R : ℝ} {s : Sphere3 ℝ} (hr : 0 < s.radius) (h : tiny (corr q R s) = true) : Stop τ q R s := by
  obtain ⟨h1, h2, h3, h4⟩ := ht _ h
  simp only [corr, Vec3.sub, Vec3.mul] at h1 h2 h3 h4
  refine ⟨hr, ?_, ?_, ?_, h4⟩
  all_goals rw [abs_le] at *; constructor <;> linarith

/-- From the second iteration on the centre is right and the radius follows Heron's rule. -/
private theorem iter_center {τ : ℝ} (ht : ∀ x, tiny x = true → |x.1.x| ≤ τ ∧ |x.1.y| ≤ τ ∧ |x.1.z| ≤ τ ∧ |x.2| ≤ τ)
    (hv : Spec.Solves solve) (h : d.WF) (hs : d.Shows xs) {q : Vec3 ℝ} {R : ℝ} (hR : 0 < R) (ho : Spec.OnSphere q R xs)
    (hn : Spec.NotCoplanar xs) (hx : xs ≠ []) : ∀ (n : ℕ) (r : ℝ), 0 < r →
    SphereFit.iterate solve tiny d n ⟨q, r⟩ = ⟨q, (heron R)^[n] r⟩ ∨ Stop τ q R (SphereFit.iterate solve tiny d n ⟨q, r⟩)
  | 0, r, _ => Or.inl rfl
  | n + 1, r, hr => by
    have e := solve_eq hv h hs ho hn hx ⟨q, r⟩ hr
    by_cases htn : tiny (corr q R ⟨q, r⟩) = true
    · right
      rw [SphereFit.iterate]; simp only [e, if_pos htn]
      exact stop_of ht hr htn
    · have e2 : SphereFit.iterate solve tiny d (n + 1) ⟨q, r⟩ = SphereFit.iterate solve tiny d n ⟨q, heron R r⟩ := by
        rw [SphereFit.iterate]; simp only [e, if_neg htn]
        have c1 : q.cat (1/2) (corr q R ⟨q, r⟩).1 = q := by ext <;> simp [corr, zeo]
        have c2 : r + 1/2 * (corr q R ⟨q, r⟩).2 = heron R r := by
          have := hr.ne'
          simp only [corr, Spec.sqd, heron]; field_simp; ring
        rw [c1, c2]
      rw [e2, Function.iterate_succ_apply]
      exact iter_center ht hv h hs hR ho hn hx n _ (lt_of_lt_of_le hR (heron_ge hr).1)

private theorem ne_nil {xs : List (Vec3 ℝ)} (hn : Spec.NotCoplanar xs) : xs ≠ [] := by
  rintro rfl
  exact one_ne_zero (hn 1 0 0 0 (by simp)).1

private theorem sum_foldl90 (g : Vec3 ℝ → ℝ) : ∀ (xs : List (Vec3 ℝ)) (a : ℝ), xs.foldl (fun r v => r + g v) a = a + (xs.map g).sum
  | [], a => by simp
  | v :: t, a => by rw [List.foldl_cons, sum_foldl90 g t]; simp; ring

/-- The initial guess: the radius is positive and the first corrected radius is too. -/
private theorem guess_eq (h : d.WF) (hs : d.Shows xs) {q : Vec3 ℝ} {R : ℝ} (ho : Spec.OnSphere q R xs)
    (hn : Spec.NotCoplanar xs) : ∃ s : Sphere3 ℝ, SphereFit.guess d = some s ∧ 0 < s.radius ∧ Spec.sqd q s.center < R ^ 2 ∧
      (∀ i, s.center.toFin i = Spec.mean (fun v => v.toFin i) xs) ∧ s.radius = Spec.mean (fun v => v.dist s.center) xs := by
  have hx := ne_nil hn
  obtain ⟨c, hc, hm, hp⟩ := C60_barycenter h hs hx
  have hl : (0 : ℝ) < xs.length := by
    have := List.length_pos_iff.2 hx
    exact_mod_cast this
  have hr : (d.forEach (fun r v => r + v.dist c) 0).2 / (d.size : ℝ) = Spec.mean (fun v => v.dist c) xs := by
    rw [forEach90 _ _ h hs, sum_foldl90, zero_add, size_eq h, C35_shows_unique d _ _ h.shows hs]; rfl
  have hex : ∃ v ∈ xs, 0 < Spec.sqd v c := by
    by_contra hcon
    push Not at hcon
    have : ∀ v ∈ xs, v.x = c.x := by
      intro v hv
      have := hcon v hv
      simp only [Spec.sqd] at this
      nlinarith [sq_nonneg (v.x - c.x), sq_nonneg (v.y - c.y), sq_nonneg (v.z - c.z)]
    exact one_ne_zero (hn 1 0 0 c.x (by intro v hv; have := this v hv; linarith)).1
  obtain ⟨v0, hv0, hp0⟩ := hex
  have hpos : ∀ g : Vec3 ℝ → ℝ, (∀ v, 0 ≤ g v) → 0 < g v0 → 0 < Spec.mean g xs := by
    intro g hg hg0
    unfold Spec.mean
    refine div_pos ?_ hl
    refine lt_of_lt_of_le hg0 (List.single_le_sum ?_ _ (List.mem_map.2 ⟨v0, hv0, rfl⟩))
    intro y hy
    obtain ⟨v, _, rfl⟩ := List.mem_map.1 hy
    exact hg v
  refine ⟨⟨c, _⟩, by rw [SphereFit.guess, hc]; rfl, ?_, ?_, hm, hr⟩
  · show 0 < _
    rw [hr]
    refine hpos _ (fun v => Real.sqrt_nonneg _) (Real.sqrt_pos.2 ?_)
    simp only [Spec.sqd] at hp0
    simp only [zeo]; linarith
  · have e := hp q
    have e1 : Spec.mean (fun v => Spec.sqd v q) xs = R ^ 2 := by
      have : ∀ g : Vec3 ℝ → ℝ, (∀ v ∈ xs, g v = R ^ 2) → Spec.mean g xs = Spec.mean (fun _ => R ^ 2) xs := by
        intro g hg; unfold Spec.mean; rw [List.map_congr_left hg]
      rw [this _ (by intro v hv; have := ho v hv; simp only [Spec.sqd]; linarith), Spec.mean_const _ hx]
    have e2 := hpos (fun v => Spec.sqd v c) (fun v => by simp only [Spec.sqd]; positivity) hp0
    show Spec.sqd q c < R ^ 2
    linarith

/-- **C90** (`zSphere3DFit`): let the points lie on a sphere and not in one plane, let the solver satisfy the
equations whenever that is possible, and let only corrections up to `τ` count as tiny. Then the result has
exactly the centre of the sphere and a radius at most `K/2ⁿ` too large, `n` being the largest number of
iterations and `K` depending on the points only, or the iteration ended early and the centre is right up to
`τ/2` in each coordinate and the radius up to `τ + 3τ²/4R`. -/
theorem C90_fit (h : d.WF) (hs : d.Shows xs) (q : Vec3 ℝ) (R : ℝ) (hR : 0 < R) (ho : Spec.OnSphere q R xs)
    (hn : Spec.NotCoplanar xs) : ∃ K : ℝ, ∀ (solve : List ((Vec3 ℝ × ℝ) × ℝ) → Vec3 ℝ × ℝ) (tiny : Vec3 ℝ × ℝ → Bool) (τ : ℝ),
      Spec.Solves solve → (∀ x, tiny x = true → |x.1.x| ≤ τ ∧ |x.1.y| ≤ τ ∧ |x.1.z| ≤ τ ∧ |x.2| ≤ τ) → ∀ n, 2 ≤ n →
      ∃ s, sphereFit solve tiny n d = some s ∧
        ((s.center = q ∧ R ≤ s.radius ∧ s.radius ≤ R + K / 2 ^ n) ∨
         (|s.center.x - q.x| ≤ τ / 2 ∧ |s.center.y - q.y| ≤ τ / 2 ∧ |s.center.z - q.z| ≤ τ / 2 ∧
          |s.radius - R| ≤ τ + 3 * τ ^ 2 / (4 * R))) := by
  have hx := ne_nil hn
  obtain ⟨s0, hg, hr0, hin, -, -⟩ := guess_eq h hs ho hn
  set r1 : ℝ := s0.radius + 1/2 * (corr q R s0).2 with hr1
  have hr1' : r1 = (s0.radius ^ 2 + (R ^ 2 - Spec.sqd q s0.center)) / (2 * s0.radius) := by
    have := hr0.ne'
    simp only [hr1, corr]; field_simp; ring
  have hp1 : 0 < r1 := by
    rw [hr1']
    have : 0 < R ^ 2 - Spec.sqd q s0.center := by linarith
    positivity
  refine ⟨(heron R r1 - R) * 4, ?_⟩
  intro solve tiny τ hv ht n hn2
  refine ⟨_, by rw [sphereFit, hg, Option.map_some], ?_⟩
  have hstop : ∀ s : Sphere3 ℝ, Stop τ q R s → |s.center.x - q.x| ≤ τ / 2 ∧ |s.center.y - q.y| ≤ τ / 2 ∧ |s.center.z - q.z| ≤ τ / 2 ∧
          |s.radius - R| ≤ τ + 3 * τ ^ 2 / (4 * R) := by
    rintro s ⟨hr, hx', hy', hz', hd⟩
    refine ⟨hx', hy', hz', ?_⟩
    have hτ : 0 ≤ τ := (abs_nonneg _).trans hd
    rw [abs_div, abs_of_pos hr, div_le_iff₀ hr] at hd
    have hq : Spec.sqd q s.center ≤ 3 * τ ^ 2 / 4 := by
      have a := sq_le_sq' (abs_le.1 hx').1 (abs_le.1 hx').2
      have b := sq_le_sq' (abs_le.1 hy').1 (abs_le.1 hy').2
      have c := sq_le_sq' (abs_le.1 hz').1 (abs_le.1 hz').2
      simp only [Spec.sqd]; nlinarith
    have hq0 : 0 ≤ Spec.sqd q s.center := by simp only [Spec.sqd]; positivity
    have hsum : |s.radius - R| * (s.radius + R) ≤ τ * s.radius + 3 * τ ^ 2 / 4 := by
      have : |s.radius - R| * (s.radius + R) = |R ^ 2 - s.radius ^ 2| := by
        have hp : 0 < s.radius + R := by linarith
        calc |s.radius - R| * (s.radius + R) = |s.radius - R| * |s.radius + R| := by rw [abs_of_pos hp]
          _ = |-((s.radius - R) * (s.radius + R))| := by rw [abs_neg, abs_mul]
          _ = _ := by congr 1; ring
      rw [this]
      rw [abs_le] at hd ⊢
      constructor <;> linarith [hd.1, hd.2]
    have hdv : 3 * τ ^ 2 / (4 * R) * R = 3 * τ ^ 2 / 4 := by field_simp
    have h0 : 0 ≤ 3 * τ ^ 2 / (4 * R) := by positivity
    by_contra hc
    push Not at hc
    have : (τ + 3 * τ ^ 2 / (4 * R)) * (s.radius + R) < |s.radius - R| * (s.radius + R) := mul_lt_mul_of_pos_right hc (by linarith)
    nlinarith [mul_nonneg h0 hr.le, mul_nonneg hτ hR.le]
  obtain ⟨m, rfl⟩ : ∃ m, n = m + 2 := ⟨n - 2, by omega⟩
  have e := solve_eq hv h hs ho hn hx s0 hr0
  by_cases htn : tiny (corr q R s0) = true
  · right
    apply hstop
    rw [SphereFit.iterate]; simp only [e, if_pos htn]
    exact stop_of ht hr0 htn
  · have e2 : SphereFit.iterate solve tiny d (m + 2) s0 = SphereFit.iterate solve tiny d (m + 1) ⟨q, r1⟩ := by
      rw [SphereFit.iterate]; simp only [e, if_neg htn]
      have c1 : s0.center.cat (1/2) (corr q R s0).1 = q := by ext <;> simp [corr, zeo]
      rw [c1]
    rw [e2]
    rcases iter_center (τ := τ) ht hv h hs hR ho hn hx (m + 1) r1 hp1 with hi | hi
    · left
      rw [hi]
      rw [Function.iterate_succ_apply]
      obtain ⟨i1, i2⟩ := heron_iter hR m (heron R r1) (heron_ge hp1).1
      refine ⟨rfl, i1, ?_⟩
      have : (heron R r1 - R) * 4 / 2 ^ (m + 2) = (heron R r1 - R) / 2 ^ m := by
        rw [pow_add]; field_simp; norm_num
      rw [this]
      show (heron R)^[m] (heron R r1) ≤ _
      linarith
    · exact Or.inr (hstop _ hi)

/-- Four unit points on the axes lie on a sphere and not in one plane, and there is a solver. -/
example : Spec.OnSphere ⟨0, 0, 0⟩ 1 [⟨1, 0, 0⟩, ⟨0, 1, 0⟩, ⟨0, 0, 1⟩, ⟨-1, 0, 0⟩] ∧
    Spec.NotCoplanar [⟨1, 0, 0⟩, ⟨0, 1, 0⟩, ⟨0, 0, 1⟩, ⟨-1, 0, 0⟩] ∧ ∃ s, Spec.Solves s := by
  classical
  refine ⟨by intro v hv; fin_cases hv <;> norm_num, ?_, ?_⟩
  · intro a b c k h
    have h1 := h ⟨1, 0, 0⟩ (by simp)
    have h2 := h ⟨0, 1, 0⟩ (by simp)
    have h3 := h ⟨0, 0, 1⟩ (by simp)
    have h4 := h ⟨-1, 0, 0⟩ (by simp)
    simp only at h1 h2 h3 h4
    refine ⟨?_, ?_, ?_⟩ <;> linarith
  · refine ⟨fun sys => if h : ∃ x, ∀ p ∈ sys, Spec.lhs p.1 x = p.2 then h.choose else (⟨0, 0, 0⟩, 0), ?_⟩
    intro sys h p hp
    simp only [dif_pos h]
    exact h.choose_spec p hp

/-- Where the iteration comes to rest, the fit is stationary: if the least squares solution of the equations
built for a sphere is zero, the misfit has no slope in any direction of the centre and the radius. This needs
no assumption on the points. -/
theorem C90_stationary (h : d.WF) (hs : d.Shows xs) (s : Sphere3 ℝ)
    (hm : ∀ x, Spec.sqErr (SphereFit.system d s) (⟨0, 0, 0⟩, 0) ≤ Spec.sqErr (SphereFit.system d s) x) (u : Vec3 ℝ) (w : ℝ) :
    HasDerivAt (fun t => Spec.misfit xs ⟨s.center.x + t * u.x, s.center.y + t * u.y, s.center.z + t * u.z⟩ (s.radius + t * w)) 0 0 := by
  set g : Vec3 ℝ → ℝ := fun v => v.sqrDist s.center - s.radius * s.radius with hgd
  set l : Vec3 ℝ → ℝ := fun v => Spec.lhs (v.sub s.center, s.radius) (u, w) with hld
  have hq : ∀ (ys : List (Vec3 ℝ)) (t : ℝ), Spec.sqErr (ys.map fun v => ((v.sub s.center, s.radius), g v)) (u.mul t, t * w) =
      t ^ 2 * (ys.map fun v => l v ^ 2).sum - 2 * t * (ys.map fun v => g v * l v).sum + (ys.map fun v => g v ^ 2).sum := by
    intro ys t
    induction ys with
    | nil => simp [Spec.sqErr]
    | cons v ys ih =>
      simp only [Spec.sqErr, List.map_cons, List.sum_cons] at ih ⊢
      rw [ih]
      simp only [hld, Spec.lhs, Vec3.mul]; ring
  have hz : Spec.sqErr (xs.map fun v => ((v.sub s.center, s.radius), g v)) (⟨0, 0, 0⟩, 0) = (xs.map fun v => g v ^ 2).sum := by
    rw [Spec.sqErr, List.map_map]
    congr 1
    exact List.map_congr_left (fun v _ => by simp [Spec.lhs, Function.comp])
  have hS : (xs.map fun v => g v * l v).sum = 0 := by
    set S := (xs.map fun v => g v * l v).sum
    set Q := (xs.map fun v => l v ^ 2).sum
    have hQ : 0 ≤ Q := List.sum_nonneg (by intro y hy; obtain ⟨v, _, rfl⟩ := List.mem_map.1 hy; positivity)
    have key : ∀ t : ℝ, 0 ≤ t ^ 2 * Q - 2 * t * S := by
      intro t
      have := hm (u.mul t, t * w)
      rw [system_eq h hs, hz, hq] at this
      linarith
    have k1 := key (S / (Q + 1))
    have : (S / (Q + 1)) ^ 2 * Q - 2 * (S / (Q + 1)) * S = - (S ^ 2 * (Q + 2)) / (Q + 1) ^ 2 := by field_simp; ring
    rw [this] at k1
    by_contra hne
    have : 0 < S ^ 2 * (Q + 2) / (Q + 1) ^ 2 := by positivity
    rw [neg_div] at k1
    linarith
  have hder : ∀ ys : List (Vec3 ℝ), HasDerivAt (fun t => Spec.misfit ys ⟨s.center.x + t * u.x, s.center.y + t * u.y, s.center.z + t * u.z⟩ (s.radius + t * w))
      (-4 * (ys.map fun v => g v * l v).sum) 0 := by
    intro ys
    induction ys with
    | nil => simpa [Spec.misfit] using hasDerivAt_const (0 : ℝ) (0 : ℝ)
    | cons v ys ih =>
      have hlin : ∀ a b : ℝ, HasDerivAt (fun t : ℝ => (a - t * b) ^ 2) (2 * a * (-b)) 0 := by
        intro a b
        have := (((hasDerivAt_id (0 : ℝ)).mul_const b).const_sub a).pow 2
        refine this.congr_deriv ?_
        simp
      have h1 := hlin (v.x - s.center.x) u.x
      have h2 := hlin (v.y - s.center.y) u.y
      have h3 := hlin (v.z - s.center.z) u.z
      have h4 := hlin s.radius (-w)
      have h5 := ((((h1.add h2).add h3).sub h4).pow 2).add ih
      refine (h5.congr_of_eventuallyEq (Filter.Eventually.of_forall ?_)).congr_deriv ?_
      · intro t
        simp only [Spec.misfit, List.map_cons, List.sum_cons, Pi.add_apply, Pi.sub_apply, Pi.pow_apply]
        ring
      · simp only [List.map_cons, List.sum_cons, hgd, hld, Spec.lhs, Pi.add_apply, Pi.sub_apply, Pi.pow_apply, zeo]
        push_cast
        ring
  have := hder xs
  rwa [hS, mul_zero] at this

/-- A sphere which fits four points badly and is stationary. -/
example : ∃ (d : Data (Vec3 ℝ)) (xs : List (Vec3 ℝ)), d.WF ∧ d.Shows xs ∧ Spec.misfit xs ⟨0, 0, 0⟩ 5 ≠ 0 ∧
    ∀ x, Spec.sqErr (SphereFit.system d ⟨⟨0, 0, 0⟩, 5⟩) (⟨0, 0, 0⟩, 0) ≤ Spec.sqErr (SphereFit.system d ⟨⟨0, 0, 0⟩, 5⟩) x := by
  have hw : (assignArray [⟨1, 0, 0⟩, ⟨-1, 0, 0⟩, ⟨7, 0, 0⟩, ⟨-7, 0, 0⟩] : Data (Vec3 ℝ)).WF := by simp [assignArray, Data.WF]
  refine ⟨_, _, hw, hw.shows, ?_, ?_⟩
  · norm_num [Spec.misfit, assignArray, Data.contents]
  · intro x
    rw [system_eq hw hw.shows]
    simp only [Spec.sqErr, Spec.lhs, assignArray, Data.contents, List.map, List.sum_cons, List.sum_nil, zeo, List.take, List.length]
    nlinarith [sq_nonneg x.1.x, sq_nonneg x.2]

end
end Zeo

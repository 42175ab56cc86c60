import Verif.Lemmas.MPRDepth

/-! # Minkowski Portal Refinement: runs on given points against the origin -/

namespace Zeo.MPR
noncomputable section
open Classical

/-- The pair of a point and the origin. -/
def pr (a : Vec3 ℝ) : Slot := ⟨a.sub .zero, a, .zero⟩

theorem pr_v (a : Vec3 ℝ) : (pr a).v = a := by
  show a.sub .zero = a
  ext <;> simp only [zeo] <;> ring

variable {τ : ℝ} {xs : List (Vec3 ℝ)} {supp : Vec3 ℝ → Option Slot}

/-- The support map at a direction with one extreme point. -/
theorem supp_eq (hS : Supp xs [Vec3.zero] supp) {n d a : Vec3 ℝ} (hd : unit n = some d) (ha : a ∈ xs)
    (h : ∀ p ∈ xs, p = a ∨ p.inner n < a.inner n) : supp d = some (pr a) := by
  obtain ⟨hk, -, hu⟩ := unit_spec hd
  obtain ⟨s, hs, ⟨h1, h2, h3⟩, ho⟩ := hS d
  have h2' : s.v2 = .zero := by simpa using h2
  rw [h2'] at h3
  have hle := ho a ha .zero List.mem_cons_self
  rw [h3, hu, hu, div_le_div_iff_of_pos_right hk] at hle
  rcases h _ h1 with e | hlt
  · rw [hs]
    obtain ⟨v, v1, v2⟩ := s
    dsimp only at *
    subst e h2' h3
    rfl
  · exfalso
    simp only [zeo] at hle hlt
    linarith

theorem tol_le (h0 : 0 ≤ τ) (h1 : τ ≤ 1 / 1000) {n : Vec3 ℝ} {c : ℝ} (hc : 0 ≤ c) (h : n.inner n ≤ (1000 * c) ^ 2) : τ * n.norm ≤ c := by
  have e : n.norm ≤ 1000 * c := by
    refine Real.sqrt_le_iff.2 ⟨by linarith, ?_⟩
    refine le_trans (le_of_eq ?_) h
    simp only [zeo]
  have : 0 ≤ n.norm := Real.sqrt_nonneg _
  nlinarith

/-- The search reaches its loop with vertices 1 and 2. -/
theorem findFrom_eval (hS : Supp xs [Vec3.zero] supp) (h0 : 0 ≤ τ) (h1 : τ ≤ 1 / 1000) (fuel : ℕ) {s0 : Slot} {a b : Vec3 ℝ}
    (ha : a ∈ xs) (hb : b ∈ xs) (ua : ∀ p ∈ xs, p = a ∨ p.inner s0.v.rev < a.inner s0.v.rev)
    (ub : ∀ p ∈ xs, p = b ∨ p.inner (a.outer s0.v) < b.inner (a.outer s0.v))
    (ga : 0 ≤ a.inner s0.v.rev) (na : s0.v.inner s0.v ≤ (1000 * a.inner s0.v.rev) ^ 2) (nz : s0.v ≠ .zero)
    (gb : 0 ≤ b.inner (a.outer s0.v)) (nb : (a.outer s0.v).inner (a.outer s0.v) ≤ (1000 * b.inner (a.outer s0.v)) ^ 2)
    (nt : 1 / 1000 < |(a.outer s0.v).x| ∨ 1 / 1000 < |(a.outer s0.v).y| ∨ 1 / 1000 < |(a.outer s0.v).z|)
    (hg : Vec3.grassmann s0.v a b < 0) :
    ∃ d, unit (normal s0.v a b) = some d ∧ findFrom τ supp fuel s0 = findLoop τ supp fuel s0 (pr a) (pr b) d := by
  have nz' : s0.v.rev ≠ .zero := by
    intro e
    apply nz
    have ex := congrArg Vec3.x e
    have ey := congrArg Vec3.y e
    have ez := congrArg Vec3.z e
    simp only [zeo] at ex ey ez
    ext <;> simp only [zeo] <;> linarith
  have on : a.outer s0.v ≠ .zero := by
    intro e
    rw [e] at nt
    simp only [Vec3.zero, abs_zero] at nt
    norm_num at nt
  obtain ⟨d1, hd1⟩ := unit_some nz'
  obtain ⟨d2, hd2⟩ := unit_some on
  obtain ⟨d3, hd3⟩ := unit_some (normal_ne_of_g hg.ne)
  refine ⟨d3, hd3, ?_⟩
  unfold findFrom
  rw [hd1]
  dsimp only
  rw [supp_eq hS hd1 ha ua]
  dsimp only
  rw [pr_v]
  obtain ⟨k1, -, u1⟩ := unit_spec hd1
  obtain ⟨k2, -, u2⟩ := unit_spec hd2
  obtain ⟨k3, -, u3⟩ := unit_spec hd3
  have t1 : ¬ a.inner d1 < τ := by
    rw [u1, not_lt, le_div_iff₀ k1]
    refine tol_le h0 h1 ga ?_
    convert na using 1
    simp only [zeo]; ring
  have t2 : ¬ (a.outer s0.v).isTol τ := by
    rintro ⟨hx, hy, hz⟩
    simp only [zIsTol] at hx hy hz
    rcases nt with h | h | h <;> linarith
  have t3 : ¬ b.inner d2 < τ := by
    rw [u2, not_lt, le_div_iff₀ k2]
    exact tol_le h0 h1 gb nb
  rw [if_neg t1, if_neg t2, hd2]
  dsimp only
  rw [supp_eq hS hd2 hb ub]
  dsimp only
  rw [pr_v, if_neg t3, findThird, simplexDir, pr_v, pr_v, hd3]
  dsimp only
  refine if_neg ?_
  have e : d3.inner s0.v = s0.v.inner d3 := by simp only [zeo]; ring
  have e2 : s0.v.inner (normal s0.v a b) = Vec3.grassmann s0.v a b := by simp only [normal, zeo]; ring
  rw [e, u3, e2, not_lt]
  exact (div_neg_of_neg_of_pos hg k3).le

/-- A round of the search that replaces vertex 2. -/
theorem loop_two (hS : Supp xs [Vec3.zero] supp) (h0 : 0 ≤ τ) (h1 : τ ≤ 1 / 1000) (fuel : ℕ) {s0 : Slot} {a b c d : Vec3 ℝ}
    (hd : unit (normal s0.v a b) = some d) (hc : c ∈ xs) (uc : ∀ p ∈ xs, p = c ∨ p.inner (normal s0.v a b) < c.inner (normal s0.v a b))
    (gc : 0 ≤ c.inner (normal s0.v a b)) (nc : (normal s0.v a b).inner (normal s0.v a b) ≤ (1000 * c.inner (normal s0.v a b)) ^ 2)
    (hg : Vec3.grassmann s0.v a c ≤ -(1 / 1000)) :
    ∃ d', unit (normal s0.v a c) = some d' ∧
      findLoop τ supp (fuel + 1) s0 (pr a) (pr b) d = findLoop τ supp fuel s0 (pr a) (pr c) d' := by
  obtain ⟨d', hd'⟩ := unit_some (normal_ne_of_g (a := s0.v) (b := a) (c := c) (by linarith))
  refine ⟨d', hd', ?_⟩
  obtain ⟨k1, -, u1⟩ := unit_spec hd
  rw [findLoop, supp_eq hS hd hc uc]
  dsimp only
  rw [pr_v, pr_v, if_neg, if_pos (by linarith), simplexDir, pr_v, pr_v, hd']
  rw [u1, not_lt, le_div_iff₀ k1]
  exact tol_le h0 h1 gc nc

/-- A round of the search that replaces vertex 1. -/
theorem loop_one (hS : Supp xs [Vec3.zero] supp) (h0 : 0 ≤ τ) (h1 : τ ≤ 1 / 1000) (fuel : ℕ) {s0 : Slot} {a b c d : Vec3 ℝ}
    (hd : unit (normal s0.v a b) = some d) (hc : c ∈ xs) (uc : ∀ p ∈ xs, p = c ∨ p.inner (normal s0.v a b) < c.inner (normal s0.v a b))
    (gc : 0 ≤ c.inner (normal s0.v a b)) (nc : (normal s0.v a b).inner (normal s0.v a b) ≤ (1000 * c.inner (normal s0.v a b)) ^ 2)
    (hg' : 0 < Vec3.grassmann s0.v a c) (hg : Vec3.grassmann s0.v c b ≤ -(1 / 1000)) :
    ∃ d', unit (normal s0.v c b) = some d' ∧
      findLoop τ supp (fuel + 1) s0 (pr a) (pr b) d = findLoop τ supp fuel s0 (pr c) (pr b) d' := by
  obtain ⟨d', hd'⟩ := unit_some (normal_ne_of_g (a := s0.v) (b := c) (c := b) (by linarith))
  refine ⟨d', hd', ?_⟩
  obtain ⟨k1, -, u1⟩ := unit_spec hd
  rw [findLoop, supp_eq hS hd hc uc]
  dsimp only
  rw [pr_v, pr_v, pr_v, if_neg, if_neg (by linarith), if_pos (by linarith), simplexDir, pr_v, pr_v, hd']
  rw [u1, not_lt, le_div_iff₀ k1]
  exact tol_le h0 h1 gc nc

/-- The last round of the search. -/
theorem loop_done (hS : Supp xs [Vec3.zero] supp) (h0 : 0 ≤ τ) (h1 : τ ≤ 1 / 1000) (fuel : ℕ) {s0 : Slot} {a b c d : Vec3 ℝ}
    (hd : unit (normal s0.v a b) = some d) (hc : c ∈ xs) (uc : ∀ p ∈ xs, p = c ∨ p.inner (normal s0.v a b) < c.inner (normal s0.v a b))
    (gc : 0 ≤ c.inner (normal s0.v a b)) (nc : (normal s0.v a b).inner (normal s0.v a b) ≤ (1000 * c.inner (normal s0.v a b)) ^ 2)
    (hg' : -τ < Vec3.grassmann s0.v a c) (hg : -τ < Vec3.grassmann s0.v c b) :
    findLoop τ supp (fuel + 1) s0 (pr a) (pr b) d = some (.toRefine ⟨s0, pr a, pr b, pr c⟩) := by
  obtain ⟨k1, -, u1⟩ := unit_spec hd
  rw [findLoop, supp_eq hS hd hc uc]
  dsimp only
  rw [pr_v, pr_v, pr_v, if_neg, if_neg (by linarith), if_neg (by linarith)]
  rw [u1, not_lt, le_div_iff₀ k1]
  exact tol_le h0 h1 gc nc

/-- The refinement stops with contact. -/
theorem refine_hit (h0 : 0 ≤ τ) (fuel : ℕ) {s0 : Slot} {a b c : Vec3 ℝ} (hn : 0 < a.inner (normal a b c)) :
    refine τ supp (fuel + 1) ⟨s0, pr a, pr b, pr c⟩ = some (.ret true ⟨s0, pr a, pr b, pr c⟩) := by
  have nz : normal a b c ≠ .zero := by
    intro e; rw [e] at hn; simp only [zeo] at hn; linarith
  obtain ⟨d, hd⟩ := unit_some nz
  obtain ⟨k1, -, u1⟩ := unit_spec hd
  have hd' : Portal.dir ⟨s0, pr a, pr b, pr c⟩ = some d := by
    simp only [Portal.dir, simplexDir, pr_v]; exact hd
  rw [refine, hd']
  dsimp only
  rw [pr_v, if_pos]
  rw [u1]
  have := div_pos hn k1
  linarith

/-- The refinement goes on with a wider portal. -/
theorem refine_more (hS : Supp xs [Vec3.zero] supp) (h0 : 0 ≤ τ) (h1 : τ ≤ 1 / 1000) (fuel : ℕ) {s0 : Slot} {a b c e : Vec3 ℝ}
    (he : e ∈ xs) (ue : ∀ p ∈ xs, p = e ∨ p.inner (normal a b c) < e.inner (normal a b c))
    (ha : a.inner (normal a b c) ≤ 0) (na : (normal a b c).inner (normal a b c) ≤ (1000 * -a.inner (normal a b c)) ^ 2)
    (ge : 0 < e.inner (normal a b c))
    (nr : (normal a b c).inner (normal a b c) ≤ (1000 * (e.inner (normal a b c) - a.inner (normal a b c))) ^ 2) :
    refine τ supp (fuel + 1) ⟨s0, pr a, pr b, pr c⟩ = refine τ supp fuel (Portal.expand ⟨s0, pr a, pr b, pr c⟩ (pr e)) := by
  have nz : normal a b c ≠ .zero := by
    intro e; rw [e] at ge; simp only [zeo] at ge; linarith
  obtain ⟨d, hd⟩ := unit_some nz
  obtain ⟨k1, -, u1⟩ := unit_spec hd
  have hd' : Portal.dir ⟨s0, pr a, pr b, pr c⟩ = some d := by
    simp only [Portal.dir, simplexDir, pr_v]; exact hd
  rw [refine, hd']
  dsimp only
  rw [pr_v, if_neg, supp_eq hS hd he ue]
  · dsimp only
    rw [pr_v, if_neg]
    rintro (h | h)
    · rw [u1] at h
      have := div_pos ge k1
      linarith
    · have := h.1
      rw [pr_v, pr_v, u1, u1, ← sub_div, div_lt_iff₀ k1] at this
      have := tol_le h0 h1 (by linarith) nr
      linarith
  · rw [u1, not_lt, div_le_iff₀ k1]
    have := tol_le h0 h1 (by linarith) na
    linarith

end
end Zeo.MPR

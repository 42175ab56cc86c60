import Verif.Model.MPR
import Verif.Lemmas.GjkRun
import Verif.Props.C36
import Verif.Props.C60

/-! # Lemmas on the Minkowski Portal Refinement -/

namespace Zeo.MPR
noncomputable section
open Classical

/-- The slot holds a pair of points of the two sets and their difference. -/
def IsVert (xs ys : List (Vec3 ℝ)) (s : Slot) : Prop := s.v1 ∈ xs ∧ s.v2 ∈ ys ∧ s.v = s.v1.sub s.v2

/-- What the support map delivers. -/
def Supp (xs ys : List (Vec3 ℝ)) (supp : Vec3 ℝ → Option Slot) : Prop :=
  ∀ v, ∃ s, supp v = some s ∧ IsVert xs ys s ∧ ∀ p ∈ xs, ∀ q ∈ ys, (p.sub q).inner v ≤ s.v.inner v

theorem supp_pairs {d1 d2 : Data (Vec3 ℝ)} (w1 : d1.WF) (w2 : d2.WF) {xs ys : List (Vec3 ℝ)} (s1 : d1.Shows xs) (s2 : d2.Shows ys)
    (hx : xs ≠ []) (hy : ys ≠ []) : Supp xs ys (supportMap d1 d2) := by
  intro v
  obtain ⟨p, hp, hpm, hpo⟩ := (C36_supportMap d1 w1 xs s1 v).resolve_left fun h => hx h.1
  obtain ⟨q, hq, hqm, hqo⟩ := (C36_supportMap d2 w2 ys s2 v.rev).resolve_left fun h => hy h.1
  refine ⟨⟨p.sub q, p, q⟩, by rw [supportMap, hp, hq], ⟨hpm, hqm, rfl⟩, fun q1 h1 q2 h2 => ?_⟩
  have a1 := hpo q1 h1
  have a2 := hqo q2 h2
  simp only [Vec3.inner, Vec3.sub, Vec3.rev] at a1 a2 ⊢
  linarith

/-! ## Directions -/

theorem norm_pos_of_ne {v : Vec3 ℝ} (h : v ≠ .zero) : 0 < v.norm := by
  refine lt_of_le_of_ne (Real.sqrt_nonneg _) fun e => h ?_
  have := Vec3.norm_sq v
  rw [← e] at this
  simp only [zeo] at this
  ext <;> simp only [zeo] <;> nlinarith [mul_self_nonneg v.x, mul_self_nonneg v.y, mul_self_nonneg v.z]

theorem unit_spec {v u : Vec3 ℝ} (h : unit v = some u) : 0 < v.norm ∧ u.inner u = 1 ∧ (∀ a : Vec3 ℝ, a.inner u = a.inner v / v.norm) := by
  unfold unit at h
  split_ifs at h with h0
  obtain rfl := Option.some.inj h
  have hp := norm_pos_of_ne h0
  have hs := Vec3.norm_sq v
  refine ⟨hp, ?_, fun a => ?_⟩
  · simp only [Vec3.normalizeNC]
    generalize v.norm = k at *
    simp only [zeo] at hs ⊢
    field_simp
    linarith
  · simp only [Vec3.normalizeNC]
    generalize v.norm = k at *
    simp only [zeo]; field_simp

theorem unit_some {v : Vec3 ℝ} (h : v ≠ .zero) : ∃ u, unit v = some u := ⟨_, if_neg h⟩

/-- A bound for all pairs of points is a bound for the hulls. -/
theorem pair_hull {xs ys : List (Vec3 ℝ)} {d : Vec3 ℝ} {c : ℝ} (h : ∀ p ∈ xs, ∀ q ∈ ys, (p.sub q).inner d ≤ c) {a b : Vec3 ℝ}
    (ha : Spec.InHull {p | p ∈ xs} a) (hb : Spec.InHull {p | p ∈ ys} b) : (a.sub b).inner d ≤ c := by
  have h1 : ∀ q ∈ ys, (a.sub q).inner d ≤ c := fun q hq => by
    have := GJK.inner_hull (T := {p | p ∈ xs}) (v := d.rev) (c := -c - q.inner d) (fun x hx => by
      have := h x hx q hq
      simp only [zeo] at this ⊢; linarith) ha
    simp only [zeo] at this ⊢; linarith
  have := GJK.inner_hull (T := {p | p ∈ ys}) (v := d) (c := a.inner d - c) (fun x hx => by
    have := h1 x hx
    simp only [zeo] at this ⊢; linarith) hb
  simp only [zeo] at this ⊢; linarith

/-- A direction that separates the two sets, up to `c`. -/
def Below (xs ys : List (Vec3 ℝ)) (P : ℝ → Prop) : Prop :=
  ∃ d : Vec3 ℝ, d.inner d = 1 ∧ ∃ c, P c ∧ ∀ p ∈ xs, ∀ q ∈ ys, (p.sub q).inner d ≤ c

theorem findLoop_outside {τ : ℝ} {xs ys : List (Vec3 ℝ)} {supp : Vec3 ℝ → Option Slot} (hS : Supp xs ys supp) :
    ∀ (fuel : ℕ) {s0 s1 s2 : Slot} {dir : Vec3 ℝ}, dir.inner dir = 1 → findLoop τ supp fuel s0 s1 s2 dir = some .outside →
      Below xs ys (· < τ)
  | 0, _, _, _, _, _, h => by cases h
  | fuel + 1, s0, s1, s2, dir, hd, h => by
    obtain ⟨s3, hs, hv, ho⟩ := hS dir
    rw [findLoop, hs] at h
    dsimp only at h
    split at h
    · rename_i hlt
      exact ⟨dir, hd, _, hlt, ho⟩
    · split at h
      · split at h
        · cases h
        · rename_i d hd'
          exact findLoop_outside hS fuel (unit_spec hd').2.1 h
      · split at h
        · split at h
          · cases h
          · rename_i d hd'
            exact findLoop_outside hS fuel (unit_spec hd').2.1 h
        · cases h

theorem findFrom_outside {τ : ℝ} {xs ys : List (Vec3 ℝ)} {supp : Vec3 ℝ → Option Slot} (hS : Supp xs ys supp) {fuel : ℕ} {s0 : Slot}
    (h : findFrom τ supp fuel s0 = some .outside) : Below xs ys (· < τ) := by
  unfold findFrom at h
  split at h
  · cases h
  rename_i dir hd
  obtain ⟨s1, hs, hv, ho⟩ := hS dir
  rw [hs] at h
  dsimp only at h
  split at h
  · rename_i hlt
    exact ⟨dir, (unit_spec hd).2.1, _, hlt, ho⟩
  split at h
  · split at h <;> cases h
  split at h
  · cases h
  rename_i dir2 hd2
  obtain ⟨s2, hs2, hv2, ho2⟩ := hS dir2
  rw [hs2] at h
  dsimp only at h
  split at h
  · rename_i hlt
    exact ⟨dir2, (unit_spec hd2).2.1, _, hlt, ho2⟩
  unfold findThird at h
  split at h
  · cases h
  rename_i dir3 hd3
  have hu := (unit_spec hd3).2.1
  split at h
  · exact findLoop_outside hS fuel (by rw [← hu]; simp only [zeo]; ring) h
  · exact findLoop_outside hS fuel hu h

theorem refine_false {τ : ℝ} {xs ys : List (Vec3 ℝ)} {supp : Vec3 ℝ → Option Slot} (hS : Supp xs ys supp) :
    ∀ (fuel : ℕ) {p q : Portal}, refine τ supp fuel p = some (.ret false q) → Below xs ys fun c => c ≤ -τ ∨ c < 0
  | 0, _, _, h => by cases h
  | fuel + 1, p, q, h => by
    rw [refine] at h
    split at h
    · cases h
    rename_i dir hd
    split at h
    · cases h
    rename_i hle
    obtain ⟨s, hs, hv, ho⟩ := hS dir
    rw [hs] at h
    dsimp only at h
    split at h
    · rename_i hc
      refine ⟨dir, (unit_spec hd).2.1, _, ?_, ho⟩
      rcases hc with hc | hc
      · exact Or.inl hc
      · refine Or.inr ?_
        have := hc.1
        push Not at hle
        linarith
    · exact refine_false hS fuel h

/-! ## The weights of the origin -/

/-- The weights of the origin with respect to the four vertices of the portal. -/
def w0 (p : Portal) : ℝ := Vec3.grassmann p.s1.v p.s2.v p.s3.v
def w1 (p : Portal) : ℝ := Vec3.grassmann p.s0.v p.s3.v p.s2.v
def w2 (p : Portal) : ℝ := Vec3.grassmann p.s0.v p.s1.v p.s3.v
def w3 (p : Portal) : ℝ := Vec3.grassmann p.s0.v p.s2.v p.s1.v

theorem weights_zero (p : Portal) :
    w0 p * p.s0.v.x + w1 p * p.s1.v.x + w2 p * p.s2.v.x + w3 p * p.s3.v.x = 0 ∧
    w0 p * p.s0.v.y + w1 p * p.s1.v.y + w2 p * p.s2.v.y + w3 p * p.s3.v.y = 0 ∧
    w0 p * p.s0.v.z + w1 p * p.s1.v.z + w2 p * p.s2.v.z + w3 p * p.s3.v.z = 0 := by
  simp only [w0, w1, w2, w3, zeo]
  refine ⟨?_, ?_, ?_⟩ <;> ring

theorem expand_pos {p : Portal} {s : Slot} (h1 : 0 < w1 p) (h2 : 0 < w2 p) (h3 : 0 < w3 p)
    (c1 : Vec3.grassmann p.s0.v p.s1.v s.v ≠ 0) (c2 : Vec3.grassmann p.s0.v p.s2.v s.v ≠ 0) (c3 : Vec3.grassmann p.s0.v p.s3.v s.v ≠ 0) :
    0 < w1 (p.expand s) ∧ 0 < w2 (p.expand s) ∧ 0 < w3 (p.expand s) := by
  have e : w1 p * Vec3.grassmann p.s0.v p.s1.v s.v + w2 p * Vec3.grassmann p.s0.v p.s2.v s.v + w3 p * Vec3.grassmann p.s0.v p.s3.v s.v = 0 := by
    simp only [w1, w2, w3, zeo]; ring
  have e1 : p.s1.v.inner (s.v.outer p.s0.v) = Vec3.grassmann p.s0.v p.s1.v s.v := by simp only [zeo]; ring
  have e2 : p.s2.v.inner (s.v.outer p.s0.v) = Vec3.grassmann p.s0.v p.s2.v s.v := by simp only [zeo]; ring
  have e3 : p.s3.v.inner (s.v.outer p.s0.v) = Vec3.grassmann p.s0.v p.s3.v s.v := by simp only [zeo]; ring
  have r : ∀ a b c : Vec3 ℝ, Vec3.grassmann a b c = - Vec3.grassmann a c b := fun a b c => by simp only [zeo]; ring
  unfold Portal.expand
  dsimp only
  rw [e1, e2, e3]
  split
  · rename_i g1
    split
    · rename_i g2
      refine ⟨h1, ?_, g2.trans_eq ?_⟩
      · show 0 < Vec3.grassmann p.s0.v s.v p.s3.v
        rw [r]
        by_contra hh
        have : 0 ≤ Vec3.grassmann p.s0.v p.s3.v s.v := by linarith
        nlinarith [mul_pos h1 g1, mul_pos h2 g2, mul_nonneg h3.le this]
      · simp only [w3]
    · rename_i g2
      have g2' := lt_of_le_of_ne (not_lt.1 g2) c2
      refine ⟨?_, g1, h3⟩
      show 0 < Vec3.grassmann p.s0.v s.v p.s2.v
      rw [r]; linarith
  · rename_i g1
    have g1' := lt_of_le_of_ne (not_lt.1 g1) c1
    split
    · rename_i g3
      refine ⟨g3, h2, ?_⟩
      show 0 < Vec3.grassmann p.s0.v s.v p.s1.v
      rw [r]; linarith
    · rename_i g3
      have g3' := lt_of_le_of_ne (not_lt.1 g3) c3
      refine ⟨h1, ?_, ?_⟩
      · show 0 < Vec3.grassmann p.s0.v s.v p.s3.v
        rw [r]; linarith
      · show 0 < Vec3.grassmann p.s0.v p.s2.v s.v
        by_contra hh
        have : 0 ≤ -Vec3.grassmann p.s0.v p.s2.v s.v := by linarith
        nlinarith [mul_pos h1 (neg_pos.2 g1'), mul_pos h3 (neg_pos.2 g3'), mul_nonneg h2.le this]

/-! ## General position -/

/-- The differences of pairs are in general position with respect to the centre `c`: two different differences
are not in a plane with `c` and the origin (their determinant is at least `τ`), and the origin is not nearer than
`τ` to a plane through three differences. -/
structure General (τ : ℝ) (xs ys : List (Vec3 ℝ)) (c : Vec3 ℝ) : Prop where
  pair : ∀ s t, IsVert xs ys s → IsVert xs ys t → s.v ≠ t.v → Vec3.grassmann c s.v t.v ≠ 0 ∧ τ ≤ |Vec3.grassmann c s.v t.v|
  plane : ∀ s t u, IsVert xs ys s → IsVert xs ys t → IsVert xs ys u → normal s.v t.v u.v ≠ .zero →
    τ * (normal s.v t.v u.v).norm ≤ |s.v.inner (normal s.v t.v u.v)|

/-- The portal has vertices of the difference and the ray from its centre through the origin passes inside. -/
structure Good (xs ys : List (Vec3 ℝ)) (p : Portal) : Prop where
  v1 : IsVert xs ys p.s1
  v2 : IsVert xs ys p.s2
  v3 : IsVert xs ys p.s3
  p1 : 0 < w1 p
  p2 : 0 < w2 p
  p3 : 0 < w3 p

theorem Good.normal_ne {xs ys : List (Vec3 ℝ)} {p : Portal} (h : Good xs ys p) : normal p.s1.v p.s2.v p.s3.v ≠ .zero := by
  intro e
  have e' : p.s0.v.inner (normal p.s1.v p.s2.v p.s3.v) = -(w1 p + w2 p + w3 p) := by
    simp only [normal, w1, w2, w3, zeo]; ring
  rw [e] at e'
  have := h.p1
  have := h.p2
  have := h.p3
  simp only [zeo] at e'
  linarith

/-- The plane of the portal is perpendicular to its direction. -/
theorem normal_plane (a b c : Vec3 ℝ) : b.inner (normal a b c) = a.inner (normal a b c) ∧ c.inner (normal a b c) = a.inner (normal a b c) := by
  constructor <;> simp only [normal, zeo] <;> ring

theorem expand_s0 (p : Portal) (s : Slot) : (p.expand s).s0 = p.s0 := by
  unfold Portal.expand
  dsimp only
  split <;> split <;> rfl

theorem Good.expand {τ : ℝ} {xs ys : List (Vec3 ℝ)} {p : Portal} (h : Good xs ys p) (hG : General τ xs ys p.s0.v) {s : Slot} {dir : Vec3 ℝ}
    (hs : IsVert xs ys s) (hd : p.dir = some dir) (hlt : p.s1.v.inner dir < s.v.inner dir) : Good xs ys (p.expand s) := by
  obtain ⟨hp, -, hu⟩ := unit_spec hd
  obtain ⟨n2, n3⟩ := normal_plane p.s1.v p.s2.v p.s3.v
  have e2 : p.s2.v.inner dir = p.s1.v.inner dir := by rw [hu, hu, n2]
  have e3 : p.s3.v.inner dir = p.s1.v.inner dir := by rw [hu, hu, n3]
  have d1 : p.s1.v ≠ s.v := fun e => by rw [e] at hlt; exact lt_irrefl _ hlt
  have d2 : p.s2.v ≠ s.v := fun e => by rw [← e, e2] at hlt; exact lt_irrefl _ hlt
  have d3 : p.s3.v ≠ s.v := fun e => by rw [← e, e3] at hlt; exact lt_irrefl _ hlt
  obtain ⟨q1, q2, q3⟩ := expand_pos h.p1 h.p2 h.p3 (hG.pair _ _ h.v1 hs d1).1 (hG.pair _ _ h.v2 hs d2).1 (hG.pair _ _ h.v3 hs d3).1
  have hv : IsVert xs ys (p.expand s).s1 ∧ IsVert xs ys (p.expand s).s2 ∧ IsVert xs ys (p.expand s).s3 := by
    unfold Portal.expand
    dsimp only
    split <;> split
    · exact ⟨hs, h.v2, h.v3⟩
    · exact ⟨h.v1, h.v2, hs⟩
    · exact ⟨h.v1, hs, h.v3⟩
    · exact ⟨hs, h.v2, h.v3⟩
  exact ⟨hv.1, hv.2.1, hv.2.2, q1, q2, q3⟩

/-- `refine` ends with a portal whose tetrahedron contains the origin, or with the answer false. -/
theorem refine_true {τ : ℝ} (hτ : 0 ≤ τ) {xs ys : List (Vec3 ℝ)} {supp : Vec3 ℝ → Option Slot} (hS : Supp xs ys supp) :
    ∀ (fuel : ℕ) {p q : Portal}, General τ xs ys p.s0.v → Good xs ys p → refine τ supp fuel p = some (.ret true q) →
      q.s0 = p.s0 ∧ Good xs ys q ∧ 0 < w0 q
  | 0, _, _, _, _, h => by cases h
  | fuel + 1, p, q, hG, hp, h => by
    rw [refine] at h
    split at h
    · cases h
    rename_i dir hd
    obtain ⟨hn, -, hu⟩ := unit_spec hd
    split at h
    · rename_i hgt
      simp only [Option.some.injEq, Out.ret.injEq, true_and] at h
      subst h
      refine ⟨rfl, hp, ?_⟩
      have hpl := hG.plane _ _ _ hp.v1 hp.v2 hp.v3 hp.normal_ne
      have e : w0 p = p.s1.v.inner (normal p.s1.v p.s2.v p.s3.v) := by simp only [w0, normal, zeo]; ring
      rw [hu, gt_iff_lt, lt_div_iff₀ hn, ← e] at hgt
      rw [← e] at hpl
      rcases le_or_gt (w0 p) 0 with hle | hpos
      · rw [abs_of_nonpos hle] at hpl
        nlinarith
      · exact hpos
    · rename_i hle
      obtain ⟨s, hs, hv, ho⟩ := hS dir
      rw [hs] at h
      dsimp only at h
      split at h
      · cases h
      · rename_i hc
        push Not at hc hle
        have hlt : p.s1.v.inner dir < s.v.inner dir := lt_of_le_of_lt hle hc.1
        obtain ⟨r1, r2, r3⟩ := refine_true hτ hS fuel (by rw [expand_s0]; exact hG) (hp.expand hG hv hd hlt) h
        exact ⟨r1.trans (expand_s0 _ _), r2, r3⟩

/-! ## The portal found -/

/-- What holds in the loop of `_zMPRFindPortal`: `dir` is the direction of the plane through the centre and the two
vertices, and the origin is on the positive side. -/
structure Edge (xs ys : List (Vec3 ℝ)) (s0 s1 s2 : Slot) (dir : Vec3 ℝ) : Prop where
  v1 : IsVert xs ys s1
  v2 : IsVert xs ys s2
  neg : Vec3.grassmann s0.v s1.v s2.v < 0
  dir : ∃ k, 0 < k ∧ ∀ a : Vec3 ℝ, a.inner dir = a.inner (normal s0.v s1.v s2.v) / k

theorem Edge.lt {xs ys : List (Vec3 ℝ)} {s0 s1 s2 : Slot} {dir : Vec3 ℝ} (h : Edge xs ys s0 s1 s2 dir) :
    s1.v.inner dir < 0 ∧ s2.v.inner dir < 0 := by
  obtain ⟨k, hk, hd⟩ := h.dir
  obtain ⟨n1, n2⟩ := normal_plane s0.v s1.v s2.v
  have e : s0.v.inner (normal s0.v s1.v s2.v) = Vec3.grassmann s0.v s1.v s2.v := by simp only [normal, zeo]; ring
  rw [hd, hd, n1, n2, e]
  exact ⟨div_neg_of_neg_of_pos h.neg hk, div_neg_of_neg_of_pos h.neg hk⟩

theorem normal_ne_of_g {a b c : Vec3 ℝ} (h : Vec3.grassmann a b c ≠ 0) : normal a b c ≠ .zero := by
  intro e
  have e' : a.inner (normal a b c) = Vec3.grassmann a b c := by simp only [normal, zeo]; ring
  rw [e] at e'
  apply h
  rw [← e']; simp only [zeo]; ring

theorem Edge.mk' {xs ys : List (Vec3 ℝ)} {s0 s1 s2 : Slot} (v1 : IsVert xs ys s1) (v2 : IsVert xs ys s2)
    (h : Vec3.grassmann s0.v s1.v s2.v < 0) : ∃ d, simplexDir s0 s1 s2 = some d ∧ Edge xs ys s0 s1 s2 d := by
  obtain ⟨d, hd⟩ := unit_some (normal_ne_of_g h.ne)
  obtain ⟨hn, -, hu⟩ := unit_spec hd
  exact ⟨d, hd, v1, v2, h, _, hn, hu⟩

/-- One round of the loop: the end, or an edge again. -/
theorem find_step {τ : ℝ} (hτ : 0 ≤ τ) {xs ys : List (Vec3 ℝ)} {supp : Vec3 ℝ → Option Slot} (hS : Supp xs ys supp) (fuel : ℕ)
    {s0 s1 s2 : Slot} {dir : Vec3 ℝ} (hG : General τ xs ys s0.v) (h : Edge xs ys s0 s1 s2 dir) :
    findLoop τ supp (fuel + 1) s0 s1 s2 dir = some .outside ∨
    (∃ s3, findLoop τ supp (fuel + 1) s0 s1 s2 dir = some (.toRefine ⟨s0, s1, s2, s3⟩) ∧ Good xs ys ⟨s0, s1, s2, s3⟩) ∨
    (∃ s3 d, supp dir = some s3 ∧ 0 ≤ s3.v.inner dir ∧ findLoop τ supp (fuel + 1) s0 s1 s2 dir = findLoop τ supp fuel s0 s1 s3 d ∧
      Edge xs ys s0 s1 s3 d) ∨
    (∃ s3 d, supp dir = some s3 ∧ 0 ≤ s3.v.inner dir ∧ 0 < Vec3.grassmann s0.v s1.v s3.v ∧
      findLoop τ supp (fuel + 1) s0 s1 s2 dir = findLoop τ supp fuel s0 s3 s2 d ∧ Edge xs ys s0 s3 s2 d) := by
  obtain ⟨s3, hs, hv, ho⟩ := hS dir
  have he : ∀ x, findLoop τ supp (fuel + 1) s0 s1 s2 dir = x ↔ (if s3.v.inner dir < τ then some .outside
      else if Vec3.grassmann s0.v s1.v s3.v ≤ -τ then
        match simplexDir s0 s1 s3 with
        | none => some .nan
        | some d => findLoop τ supp fuel s0 s1 s3 d
      else if Vec3.grassmann s0.v s3.v s2.v ≤ -τ then
        match simplexDir s0 s3 s2 with
        | none => some .nan
        | some d => findLoop τ supp fuel s0 s3 s2 d
      else some (.toRefine ⟨s0, s1, s2, s3⟩)) = x := fun x => by rw [findLoop, hs]; exact Iff.rfl
  simp only [he]
  by_cases hlt : s3.v.inner dir < τ
  · exact Or.inl (if_pos hlt)
  have h0 : 0 ≤ s3.v.inner dir := hτ.trans (not_lt.1 hlt)
  have d1 : s1.v ≠ s3.v := fun e => by have := h.lt.1; rw [e] at this; linarith
  have d2 : s3.v ≠ s2.v := fun e => by have := h.lt.2; rw [← e] at this; linarith
  obtain ⟨g1, g1'⟩ := hG.pair _ _ h.v1 hv d1
  obtain ⟨g2, g2'⟩ := hG.pair _ _ hv h.v2 d2
  simp only [if_neg hlt]
  have pos_of : ∀ x : ℝ, x ≠ 0 → τ ≤ |x| → ¬ x ≤ -τ → 0 < x := fun x hx ha hn => by
    rcases lt_or_gt_of_ne hx with hneg | hp
    · rw [abs_of_neg hneg] at ha; exact absurd (by linarith) hn
    · exact hp
  by_cases c1 : Vec3.grassmann s0.v s1.v s3.v ≤ -τ
  · obtain ⟨d, hd, hE⟩ := Edge.mk' (s0 := s0) h.v1 hv (lt_of_le_of_ne (c1.trans (by linarith)) g1)
    refine Or.inr (Or.inr (Or.inl ⟨s3, d, hs, h0, ?_, hE⟩))
    rw [if_pos c1, hd]
  simp only [if_neg c1]
  have p1 := pos_of _ g1 g1' c1
  by_cases c2 : Vec3.grassmann s0.v s3.v s2.v ≤ -τ
  · obtain ⟨d, hd, hE⟩ := Edge.mk' (s0 := s0) hv h.v2 (lt_of_le_of_ne (c2.trans (by linarith)) g2)
    refine Or.inr (Or.inr (Or.inr ⟨s3, d, hs, h0, p1, ?_, hE⟩))
    rw [if_pos c2, hd]
  · refine Or.inr (Or.inl ⟨s3, if_neg c2, h.v1, h.v2, hv, pos_of _ g2 g2' c2, p1, ?_⟩)
    have e : w3 ⟨s0, s1, s2, s3⟩ = -Vec3.grassmann s0.v s1.v s2.v := by simp only [w3, zeo]; ring
    rw [e]
    linarith [h.neg]

theorem findLoop_refine {τ : ℝ} (hτ : 0 ≤ τ) {xs ys : List (Vec3 ℝ)} {supp : Vec3 ℝ → Option Slot} (hS : Supp xs ys supp) :
    ∀ (fuel : ℕ) {s0 s1 s2 : Slot} {dir : Vec3 ℝ}, General τ xs ys s0.v → Edge xs ys s0 s1 s2 dir → ∀ {f},
      findLoop τ supp fuel s0 s1 s2 dir = some f → f = .outside ∨ ∃ p, f = .toRefine p ∧ p.s0 = s0 ∧ Good xs ys p
  | 0, _, _, _, _, _, _, _, h => by cases h
  | fuel + 1, s0, s1, s2, dir, hG, hE, f, h => by
    rcases find_step hτ hS fuel hG hE with e | ⟨s3, e, hg⟩ | ⟨s3, d, -, -, e, hE'⟩ | ⟨s3, d, -, -, -, e, hE'⟩
    · rw [e] at h; exact Or.inl (Option.some.inj h).symm
    · rw [e] at h; exact Or.inr ⟨_, (Option.some.inj h).symm, rfl, hg⟩
    · rw [e] at h; exact findLoop_refine hτ hS fuel hG hE' h
    · rw [e] at h; exact findLoop_refine hτ hS fuel hG hE' h

theorem third_edge {τ : ℝ} {xs ys : List (Vec3 ℝ)} {supp : Vec3 ℝ → Option Slot} (fuel : ℕ)
    {s0 s1 s2 : Slot} (hG : General τ xs ys s0.v) (v1 : IsVert xs ys s1) (v2 : IsVert xs ys s2) (hne : s1.v ≠ s2.v) :
    ∃ t1 t2 d, Edge xs ys s0 t1 t2 d ∧ findThird τ supp fuel s0 s1 s2 = findLoop τ supp fuel s0 t1 t2 d := by
  have hg := (hG.pair _ _ v1 v2 hne).1
  obtain ⟨d, hd⟩ := unit_some (normal_ne_of_g hg)
  have hd' : simplexDir s0 s1 s2 = some d := hd
  obtain ⟨hn, -, hu⟩ := unit_spec hd
  have e : d.inner s0.v = Vec3.grassmann s0.v s1.v s2.v / (normal s0.v s1.v s2.v).norm := by
    have : d.inner s0.v = s0.v.inner d := by simp only [zeo]; ring
    rw [this, hu]
    congr 1
    simp only [normal, zeo]; ring
  unfold findThird
  rw [hd']
  dsimp only
  split
  · rename_i hgt
    rw [e] at hgt
    have hpos : 0 < Vec3.grassmann s0.v s1.v s2.v := by
      by_contra hh
      exact absurd hgt (not_lt.2 (div_nonpos_of_nonpos_of_nonneg (not_lt.1 hh) hn.le))
    refine ⟨s2, s1, d.rev, ⟨v2, v1, ?_, _, hn, fun a => ?_⟩, rfl⟩
    · have : Vec3.grassmann s0.v s2.v s1.v = -Vec3.grassmann s0.v s1.v s2.v := by simp only [zeo]; ring
      rw [this]; linarith
    · have e1 : a.inner d.rev = -(a.inner d) := by simp only [zeo]; ring
      have e2 : a.inner (normal s0.v s2.v s1.v) = -(a.inner (normal s0.v s1.v s2.v)) := by simp only [normal, zeo]; ring
      rw [e1, e2, hu, neg_div]
  · rename_i hle
    refine ⟨s1, s2, d, ⟨v1, v2, ?_, _, hn, hu⟩, rfl⟩
    rcases lt_or_gt_of_ne hg with h | h
    · exact h
    · rw [e] at hle; exact absurd (div_pos h hn) hle

/-- In general position `_zMPRFindPortal` has one of these results. -/
theorem findFrom_spec {τ : ℝ} (hτ : 0 ≤ τ) {xs ys : List (Vec3 ℝ)} {supp : Vec3 ℝ → Option Slot} (hS : Supp xs ys supp) {fuel : ℕ} {s0 : Slot}
    (hG : General τ xs ys s0.v) (h0 : s0.v ≠ .zero) {f : Found} (h : findFrom τ supp fuel s0 = some f) :
    f = .outside ∨ (∃ p, f = .toRefine p ∧ p.s0 = s0 ∧ Good xs ys p) ∨
      (∃ s1, (f = .atPoint s1 ∨ f = .onSeg s1) ∧ (s1.v.isTol τ ↔ f = .atPoint s1) ∧ IsVert xs ys s1 ∧ (s1.v.outer s0.v).isTol τ ∧
        s1.v.inner s0.v ≤ -(τ * s0.v.norm)) ∨ (τ = 0 ∧ f = .nan) := by
  have hr : s0.v.rev ≠ .zero := fun e => h0 (by
    have ex := congrArg Vec3.x e
    have ey := congrArg Vec3.y e
    have ez := congrArg Vec3.z e
    simp only [zeo] at ex ey ez
    ext <;> simp only [zeo] <;> linarith)
  obtain ⟨dir, hd⟩ := unit_some hr
  obtain ⟨hn, hu1, hu⟩ := unit_spec hd
  unfold findFrom at h
  rw [hd] at h
  dsimp only at h
  obtain ⟨s1, hs, hv, ho⟩ := hS dir
  rw [hs] at h
  dsimp only at h
  split at h
  · exact Or.inl (Option.some.inj h).symm
  rename_i hge
  split at h
  · rename_i htol
    refine Or.inr (Or.inr (Or.inl ⟨s1, ?_, ?_, hv, htol, ?_⟩))
    · obtain rfl := Option.some.inj h
      split
      · exact Or.inl rfl
      · exact Or.inr rfl
    · obtain rfl := Option.some.inj h
      split
      · rename_i ht; exact ⟨fun _ => rfl, fun _ => ht⟩
      · rename_i ht; exact ⟨fun hh => absurd hh ht, fun hh => by cases hh⟩
    · rw [hu] at hge
      have e1 : s0.v.rev.norm = s0.v.norm := by
        simp only [Vec3.norm, zeo]; congr 1; ring
      have e2 : s1.v.inner s0.v.rev = -(s1.v.inner s0.v) := by simp only [zeo]; ring
      rw [e1] at hge hn
      rw [e2, not_lt, le_div_iff₀ hn] at hge
      linarith
  · rename_i htol
    have hne : s1.v.outer s0.v ≠ .zero := fun e => htol (by
      rw [e]; simp only [Vec3.isTol, zIsTol, Vec3.zero, abs_zero]; exact ⟨hτ, hτ, hτ⟩)
    obtain ⟨dir2, hd2⟩ := unit_some hne
    obtain ⟨hn2, -, hu2⟩ := unit_spec hd2
    rw [hd2] at h
    dsimp only at h
    obtain ⟨s2, hs2, hv2, ho2⟩ := hS dir2
    rw [hs2] at h
    dsimp only at h
    split at h
    · exact Or.inl (Option.some.inj h).symm
    by_cases h12 : s1.v = s2.v
    · rename_i hge2
      have e0 : s2.v.inner dir2 = 0 := by
        rw [hu2, ← h12]
        have : s1.v.inner (s1.v.outer s0.v) = 0 := by simp only [zeo]; ring
        rw [this, zero_div]
      rw [e0, not_lt] at hge2
      have e1 : simplexDir s0 s1 s2 = none := by
        refine if_pos ?_
        rw [← h12]
        ext <;> simp only [normal, zeo] <;> ring
      rw [findThird, e1] at h
      exact Or.inr (Or.inr (Or.inr ⟨le_antisymm hge2 hτ, (Option.some.inj h).symm⟩))
    · obtain ⟨t1, t2, d, hE, e⟩ := third_edge (supp := supp) fuel hG hv hv2 h12
      rw [e] at h
      rcases findLoop_refine hτ hS fuel hG hE h with rfl | ⟨p, rfl, hp⟩
      · exact Or.inl rfl
      · exact Or.inr (Or.inl ⟨p, rfl, hp⟩)

/-! ## Termination of the refinement -/

/-- Where the ray from the centre through the origin crosses the portal. -/
def height (p : Portal) : ℝ := w0 p / (w1 p + w2 p + w3 p)

theorem inner_weights (p : Portal) (n : Vec3 ℝ) :
    w0 p * p.s0.v.inner n + w1 p * p.s1.v.inner n + w2 p * p.s2.v.inner n + w3 p * p.s3.v.inner n = 0 := by
  obtain ⟨hx, hy, hz⟩ := weights_zero p
  simp only [Vec3.inner]
  linear_combination n.x * hx + n.y * hy + n.z * hz

theorem height_lt {xs ys : List (Vec3 ℝ)} {p : Portal} {s : Slot} {dir : Vec3 ℝ} (h : Good xs ys p) (h' : Good xs ys (p.expand s))
    (hd : p.dir = some dir) (hlt : p.s1.v.inner dir < s.v.inner dir) : height p < height (p.expand s) := by
  obtain ⟨hn, -, hu⟩ := unit_spec hd
  set n := normal p.s1.v p.s2.v p.s3.v with hnd
  obtain ⟨n2, n3⟩ := normal_plane p.s1.v p.s2.v p.s3.v
  rw [← hnd] at n2 n3
  rw [hu, hu] at hlt
  have hlt' : p.s1.v.inner n < s.v.inner n := by
    rw [div_lt_div_iff_of_pos_right hn] at hlt; exact hlt
  have e0 : p.s0.v.inner n = -(w1 p + w2 p + w3 p) := by simp only [hnd, normal, w1, w2, w3, zeo]; ring
  have e1 : p.s1.v.inner n = w0 p := by simp only [hnd, normal, w0, zeo]; ring
  have key := inner_weights (p.expand s) n
  have g1 := h'.p1
  have g2 := h'.p2
  have g3 := h'.p3
  have hD : 0 < w1 p + w2 p + w3 p := by have := h.p1; have := h.p2; have := h.p3; linarith
  have hD' : 0 < w1 (p.expand s) + w2 (p.expand s) + w3 (p.expand s) := by linarith
  rw [height, height, div_lt_div_iff₀ hD hD']
  rw [expand_s0, e0] at key
  rw [e1] at n2 n3 hlt'
  have hcase : ∃ i : Fin 3, (p.expand s) = ![{ p with s1 := s }, { p with s2 := s }, { p with s3 := s }] i := by
    unfold Portal.expand
    dsimp only
    split <;> split
    · exact ⟨0, rfl⟩
    · exact ⟨2, rfl⟩
    · exact ⟨1, rfl⟩
    · exact ⟨0, rfl⟩
  obtain ⟨i, hi⟩ := hcase
  generalize p.expand s = p' at *
  generalize w0 p' = a0 at *
  generalize w1 p' = a1 at *
  generalize w2 p' = a2 at *
  generalize w3 p' = a3 at *
  fin_cases i
  · obtain rfl : p' = { p with s1 := s } := hi
    simp only [n2, n3] at key
    nlinarith [mul_pos g1 (sub_pos.2 hlt')]
  · obtain rfl : p' = { p with s2 := s } := hi
    simp only [e1, n3] at key
    nlinarith [mul_pos g2 (sub_pos.2 hlt')]
  · obtain rfl : p' = { p with s3 := s } := hi
    simp only [e1, n2] at key
    nlinarith [mul_pos g3 (sub_pos.2 hlt')]

/-- The pairs of points. -/
def slots (xs ys : List (Vec3 ℝ)) : List Slot := xs.flatMap fun a => ys.map fun b => ⟨a.sub b, a, b⟩

theorem mem_slots {xs ys : List (Vec3 ℝ)} {s : Slot} (h : IsVert xs ys s) : s ∈ slots xs ys := by
  obtain ⟨h1, h2, h3⟩ := h
  refine List.mem_flatMap.2 ⟨s.v1, h1, List.mem_map.2 ⟨s.v2, h2, ?_⟩⟩
  rw [← h3]

/-- The portals with centre `c`. -/
def portals (xs ys : List (Vec3 ℝ)) (c : Slot) : List Portal :=
  (slots xs ys).flatMap fun a => (slots xs ys).flatMap fun b => (slots xs ys).map fun d => ⟨c, a, b, d⟩

theorem mem_portals {xs ys : List (Vec3 ℝ)} {p : Portal} (h : Good xs ys p) : p ∈ portals xs ys p.s0 :=
  List.mem_flatMap.2 ⟨_, mem_slots h.v1, List.mem_flatMap.2 ⟨_, mem_slots h.v2, List.mem_map.2 ⟨_, mem_slots h.v3, rfl⟩⟩⟩

/-- The number of portals crossed later than `p`. -/
def rank (xs ys : List (Vec3 ℝ)) (p : Portal) : ℕ := (portals xs ys p.s0).countP fun q => height p < height q

theorem countP_lt {α : Type} {l : List α} {f g : α → Bool} (h : ∀ a ∈ l, f a = true → g a = true) {b : α} (hb : b ∈ l) (hf : f b = false)
    (hg : g b = true) : l.countP f < l.countP g := by
  induction l with
  | nil => cases hb
  | cons a l ih =>
    rw [List.countP_cons, List.countP_cons]
    have hl : l.countP f ≤ l.countP g := List.countP_mono_left fun x hx => h x (List.mem_cons_of_mem _ hx)
    rcases List.mem_cons.1 hb with rfl | hb'
    · simp only [hf, hg, Bool.false_eq_true, if_false, if_true]; omega
    · have := ih (fun x hx => h x (List.mem_cons_of_mem _ hx)) hb'
      have ha := h a List.mem_cons_self
      by_cases hfa : f a = true
      · simp only [hfa, ha hfa, if_true]; omega
      · have h0 : (if f a = true then 1 else 0) = 0 := if_neg hfa
        rw [h0]; split <;> omega

theorem rank_lt {xs ys : List (Vec3 ℝ)} {p q : Portal} (h0 : q.s0 = p.s0) (hq : Good xs ys q) (h : height p < height q) :
    rank xs ys q < rank xs ys p := by
  unfold rank
  rw [← h0]
  refine countP_lt (b := q) (fun a _ ha => ?_) (mem_portals hq) ?_ ?_
  · simp only [decide_eq_true_eq] at ha ⊢; exact h.trans ha
  · simp
  · simpa using h

theorem refine_ends {τ : ℝ} {xs ys : List (Vec3 ℝ)} {supp : Vec3 ℝ → Option Slot} (hS : Supp xs ys supp) :
    ∀ (fuel : ℕ) {p : Portal}, General τ xs ys p.s0.v → Good xs ys p → rank xs ys p < fuel → ∃ b q, refine τ supp fuel p = some (.ret b q)
  | 0, _, _, _, h => absurd h (Nat.not_lt_zero _)
  | fuel + 1, p, hG, hp, h => by
    obtain ⟨dir, hd⟩ := unit_some hp.normal_ne
    have hd' : p.dir = some dir := hd
    obtain ⟨s, hs, hv, ho⟩ := hS dir
    rw [refine, hd']
    dsimp only
    split
    · exact ⟨_, _, rfl⟩
    rename_i hle
    rw [hs]
    dsimp only
    split
    · exact ⟨_, _, rfl⟩
    rename_i hc
    push Not at hc hle
    have hlt : p.s1.v.inner dir < s.v.inner dir := lt_of_le_of_lt hle hc.1
    have hg := hp.expand hG hv hd' hlt
    have := rank_lt (expand_s0 p s) hg (height_lt hp hg hd' hlt)
    exact refine_ends hS fuel (by rw [expand_s0]; exact hG) hg (by omega)

end
end Zeo.MPR

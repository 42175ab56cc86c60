import Verif.Lemmas.MPR
import Verif.Lemmas.Hull

/-! # Minkowski Portal Refinement: penetration depth -/

namespace Zeo.MPR
noncomputable section
open Classical

/-- The loop of the search never stops at a point or a segment. -/
theorem findLoop_kinds {τ : ℝ} {supp : Vec3 ℝ → Option Slot} : ∀ (fuel : ℕ) {s0 s1 s2 : Slot} {dir : Vec3 ℝ} {s : Slot},
    findLoop τ supp fuel s0 s1 s2 dir ≠ some (.atPoint s) ∧ findLoop τ supp fuel s0 s1 s2 dir ≠ some (.onSeg s)
  | 0, _, _, _, _, _ => by constructor <;> intro h <;> cases h
  | fuel + 1, s0, s1, s2, dir, s => by
    rw [findLoop]
    split
    · constructor <;> intro h <;> cases h
    split
    · constructor <;> intro h <;> cases h
    split
    · split
      · constructor <;> intro h <;> cases h
      · exact findLoop_kinds fuel
    split
    · split
      · constructor <;> intro h <;> cases h
      · exact findLoop_kinds fuel
    · constructor <;> intro h <;> cases h

theorem findThird_kinds {τ : ℝ} {supp : Vec3 ℝ → Option Slot} (fuel : ℕ) {s0 s1 s2 s : Slot} :
    findThird τ supp fuel s0 s1 s2 ≠ some (.atPoint s) ∧ findThird τ supp fuel s0 s1 s2 ≠ some (.onSeg s) := by
  unfold findThird
  split
  · constructor <;> intro h <;> cases h
  split
  · exact findLoop_kinds fuel
  · exact findLoop_kinds fuel

/-- A search that stops at vertex 1. -/
theorem findFrom_first {τ : ℝ} {xs ys : List (Vec3 ℝ)} {supp : Vec3 ℝ → Option Slot} (hS : Supp xs ys supp) {fuel : ℕ} {s0 s1 : Slot}
    (h : findFrom τ supp fuel s0 = some (.atPoint s1) ∨ findFrom τ supp fuel s0 = some (.onSeg s1)) :
    IsVert xs ys s1 ∧ (findFrom τ supp fuel s0 = some (.atPoint s1) → s1.v.isTol τ) ∧
      ∃ d : Vec3 ℝ, d.inner d = 1 ∧ ∀ p ∈ xs, ∀ q ∈ ys, (p.sub q).inner d ≤ s1.v.inner d := by
  unfold findFrom at h ⊢
  split at h
  · rcases h with h | h <;> cases h
  rename_i dir hd
  obtain ⟨t, hs, hv, ho⟩ := hS dir
  rw [hs] at h
  simp only [hs]
  dsimp only at h ⊢
  split at h
  · rcases h with h | h <;> cases h
  split at h
  · rename_i h1 h2
    rw [if_neg h1, if_pos h2]
    split at h
    · rename_i h3
      have : t = s1 := by rcases h with h | h <;> simp_all
      subst this
      exact ⟨hv, fun _ => h3, dir, (unit_spec hd).2.1, ho⟩
    · have : t = s1 := by rcases h with h | h <;> simp_all
      subst this
      refine ⟨hv, fun h => ?_, dir, (unit_spec hd).2.1, ho⟩
      rw [if_neg (by assumption)] at h
      cases h
  split at h
  · rcases h with h | h <;> cases h
  split at h
  · rcases h with h | h <;> cases h
  split at h
  · rcases h with h | h <;> cases h
  rcases h with h | h
  · exact absurd h (findThird_kinds fuel).1
  · exact absurd h (findThird_kinds fuel).2

theorem findLoop_mono {τ : ℝ} {supp : Vec3 ℝ → Option Slot} : ∀ (f g : ℕ), f ≤ g → ∀ {s0 s1 s2 : Slot} {dir : Vec3 ℝ} {r : Found},
    findLoop τ supp f s0 s1 s2 dir = some r → findLoop τ supp g s0 s1 s2 dir = some r
  | 0, _, _, _, _, _, _, _, h => by cases h
  | f + 1, 0, hfg, _, _, _, _, _, _ => by omega
  | f + 1, g + 1, hfg, s0, s1, s2, dir, r, h => by
    rw [findLoop] at h ⊢
    split
    · rename_i e; rw [e] at h; exact h
    rename_i s3 e
    rw [e] at h
    dsimp only at h
    split
    · rename_i c; rwa [if_pos c] at h
    rename_i c
    rw [if_neg c] at h
    split
    · rename_i c'
      rw [if_pos c'] at h
      split
      · rename_i e'; rwa [e'] at h
      · rename_i e'; rw [e'] at h; exact findLoop_mono f g (by omega) h
    rename_i c'
    rw [if_neg c'] at h
    split
    · rename_i c''
      rw [if_pos c''] at h
      split
      · rename_i e'; rwa [e'] at h
      · rename_i e'; rw [e'] at h; exact findLoop_mono f g (by omega) h
    · rename_i c''
      rwa [if_neg c''] at h

theorem findFrom_mono {τ : ℝ} {supp : Vec3 ℝ → Option Slot} {f g : ℕ} (hfg : f ≤ g) {s0 : Slot} {r : Found}
    (h : findFrom τ supp f s0 = some r) : findFrom τ supp g s0 = some r := by
  unfold findFrom at h ⊢
  split
  · rename_i e; rwa [e] at h
  rename_i dir e
  rw [e] at h
  dsimp only at h
  split
  · rename_i e'; rwa [e'] at h
  rename_i s1 e'
  rw [e'] at h
  dsimp only at h
  split
  · rename_i c; rwa [if_pos c] at h
  rename_i c
  rw [if_neg c] at h
  by_cases c' : (s1.v.outer s0.v).isTol τ
  · rwa [if_pos c'] at h ⊢
  rw [if_neg c'] at h ⊢
  split
  · rename_i e2; rwa [e2] at h
  rename_i dir2 e2
  rw [e2] at h
  dsimp only at h
  split
  · rename_i e3; rwa [e3] at h
  rename_i s2 e3
  rw [e3] at h
  dsimp only at h
  split
  · rename_i c2; rwa [if_pos c2] at h
  rename_i c2
  rw [if_neg c2] at h
  unfold findThird at h ⊢
  split
  · rename_i e4; rwa [e4] at h
  rename_i dir3 e4
  rw [e4] at h
  dsimp only at h
  split
  · rename_i c3; rw [if_pos c3] at h; exact findLoop_mono f g hfg h
  · rename_i c3; rw [if_neg c3] at h; exact findLoop_mono f g hfg h

theorem rank_le (xs ys : List (Vec3 ℝ)) (p : Portal) : rank xs ys p ≤ (xs.length * ys.length) ^ 3 := by
  unfold rank
  refine List.countP_le_length.trans (le_of_eq ?_)
  simp only [portals, slots, List.length_flatMap, List.length_map, List.map_const', List.sum_replicate, smul_eq_mul]
  ring

theorem calcSegDist_plane {τ : ℝ} {p0 p1 : Vec3 ℝ} {r : ℝ × Vec3 ℝ} (h : calcSegDist τ p0 p1 = some r) {n : Vec3 ℝ}
    (hn : p1.inner n = p0.inner n) : r.1 = r.2.sqrNorm ∧ r.2.inner n = p0.inner n := by
  unfold calcSegDist at h
  dsimp only at h
  split at h
  · cases h
  obtain rfl := Option.some.inj h
  split
  · exact ⟨rfl, rfl⟩
  split
  · exact ⟨rfl, hn⟩
  · refine ⟨rfl, ?_⟩
    generalize -(p0.inner (p1.sub p0)) / (p1.sub p0).sqrNorm = t
    have : (p0.cat t (p1.sub p0)).inner n = p0.inner n + t * (p1.inner n - p0.inner n) := by simp only [zeo]; ring
    rw [this, hn]; ring

private theorem better_or {a b : Option (ℝ × Vec3 ℝ)} {r : ℝ × Vec3 ℝ} (h : better a b = some r) : a = some r ∨ b = some r := by
  unfold better at h
  split at h
  · split at h
    · exact Or.inr h
    · exact Or.inl h
  · exact Or.inl h

/-- The point of the depth calculation is in the plane of the portal. -/
theorem calcDepth_plane {τ : ℝ} {p0 p1 p2 : Vec3 ℝ} {r : ℝ × Vec3 ℝ} (h : calcDepth τ p0 p1 p2 = some r) {n : Vec3 ℝ}
    (h1 : p1.inner n = p0.inner n) (h2 : p2.inner n = p0.inner n) : r.1 = r.2.sqrNorm ∧ r.2.inner n = p0.inner n := by
  unfold calcDepth at h
  dsimp only at h
  split at h
  · obtain rfl := Option.some.inj h
    refine ⟨rfl, ?_⟩
    dsimp only
    have : ∀ s t, ((p0.cat s (p1.sub p0)).cat t (p2.sub p0)).inner n = p0.inner n + s * (p1.inner n - p0.inner n) + t * (p2.inner n - p0.inner n) := by
      intro s t; simp only [zeo]; ring
    rw [this, h1, h2]; ring
  · rcases better_or h with h | h
    · rcases better_or h with h | h
      · exact calcSegDist_plane h h1
      · exact calcSegDist_plane h h2
    · obtain ⟨a, b⟩ := calcSegDist_plane h (n := n) (by rw [h1, h2])
      exact ⟨a, b.trans h1⟩

/-- What the loop of the depth calculation ends with. -/
theorem depthLoop_true {τ : ℝ} {xs ys : List (Vec3 ℝ)} {supp : Vec3 ℝ → Option Slot} (hS : Supp xs ys supp) {od : ℝ} {op odr : Vec3 ℝ}
    {depth : ℝ} {pos dir : Vec3 ℝ} : ∀ (iter : ℕ) {p : Portal}, depthLoop τ supp od op odr iter p = .ret true depth pos dir →
    0 ≤ depth ∧ dir.inner dir = 1 ∧ ∃ d : Vec3 ℝ, d.inner d = 1 ∧ ∀ p ∈ xs, ∀ q ∈ ys, (p.sub q).inner d < depth + τ
  | 0, _, h => by cases h
  | iter + 1, p, h => by
    rw [depthLoop] at h
    split at h
    · cases h
    rename_i d hd
    obtain ⟨hn, hdd, hu⟩ := unit_spec hd
    obtain ⟨s, hs, hv, ho⟩ := hS d
    rw [hs] at h
    dsimp only at h
    split at h
    · rename_i hr
      split at h
      · rename_i r pos' hc hp
        split at h
        · cases h
        rename_i u hu2
        simp only [Res.ret.injEq, true_and] at h
        obtain ⟨rfl, rfl, rfl⟩ := h
        refine ⟨Real.sqrt_nonneg _, (unit_spec hu2).2.1, d, hdd, fun a ha b hb => ?_⟩
        obtain ⟨n2, n3⟩ := normal_plane p.s1.v p.s2.v p.s3.v
        obtain ⟨c1, c2⟩ := calcDepth_plane hc (n := d) (by rw [hu, hu, n2]) (by rw [hu, hu, n3])
        have h1 := ho a ha b hb
        have h2 := hr.1
        have h3 : r.2.inner d ≤ Real.sqrt r.1 := by
          refine Real.le_sqrt_of_sq_le ?_
          rw [c1]
          have e : r.2.sqrNorm * d.inner d - (r.2.inner d) ^ 2 = (r.2.outer d).inner (r.2.outer d) := by simp only [zeo]; ring
          have : 0 ≤ (r.2.outer d).inner (r.2.outer d) := by
            generalize r.2.outer d = o
            simp only [zeo]; nlinarith [sq_nonneg o.x, sq_nonneg o.y, sq_nonneg o.z]
          rw [hdd, mul_one] at e
          linarith
        linarith
      · cases h
    · exact depthLoop_true hS iter h

/-- In general position the portal of the depth calculation keeps the origin. -/
theorem depthLoop_good {τ : ℝ} (hτ : 0 < τ) {xs ys : List (Vec3 ℝ)} {supp : Vec3 ℝ → Option Slot} (hS : Supp xs ys supp) {od : ℝ} {op odr : Vec3 ℝ} :
    ∀ (iter : ℕ) {p : Portal}, General τ xs ys p.s0.v → Good xs ys p → 0 < w0 p → rank xs ys p < iter →
    ∃ q d s, q.s0 = p.s0 ∧ Good xs ys q ∧ 0 < w0 q ∧ q.dir = some d ∧ q.isReached τ s d ∧ supp d = some s ∧
      depthLoop τ supp od op odr iter p = depthLoop τ supp od op odr 1 q
  | 0, _, _, _, _, h => absurd h (Nat.not_lt_zero _)
  | iter + 1, p, hG, hp, h0, h => by
    obtain ⟨dir, hd⟩ := unit_some hp.normal_ne
    have hd' : p.dir = some dir := hd
    obtain ⟨s, hs, hv, ho⟩ := hS dir
    obtain ⟨hn, -, hu⟩ := unit_spec hd
    obtain ⟨n2, n3⟩ := normal_plane p.s1.v p.s2.v p.s3.v
    by_cases hr : p.isReached τ s dir
    · refine ⟨p, dir, s, rfl, hp, h0, hd', hr, hs, ?_⟩
      simp only [depthLoop, hd', hs, if_pos hr]
    · have hlt : p.s1.v.inner dir < s.v.inner dir := by
        by_contra hc
        push Not at hc
        have e2 : p.s2.v.inner dir = p.s1.v.inner dir := by rw [hu, hu, n2]
        have e3 : p.s3.v.inner dir = p.s1.v.inner dir := by rw [hu, hu, n3]
        exact hr ⟨by linarith, by linarith, by linarith⟩
      have hg := hp.expand hG hv hd' hlt
      have hh := height_lt hp hg hd' hlt
      have hr' := rank_lt (expand_s0 p s) hg hh
      have h0' : 0 < w0 (p.expand s) := by
        have a1 := hp.p1; have a2 := hp.p2; have a3 := hp.p3
        have b1 := hg.p1; have b2 := hg.p2; have b3 := hg.p3
        have : 0 < height p := div_pos h0 (by linarith)
        have : 0 < height (p.expand s) := this.trans hh
        rw [height, div_pos_iff_of_pos_right (by linarith)] at this
        exact this
      obtain ⟨q, d, s', r1, r2⟩ := depthLoop_good hτ hS iter (od := od) (op := op) (odr := odr) (by rw [expand_s0]; exact hG) hg h0' (by omega)
      refine ⟨q, d, s', r1.trans (expand_s0 _ _), ?_⟩
      convert r2 using 6
      simp only [depthLoop, hd', hs, if_neg hr]

theorem calcDepth_some {τ : ℝ} {p0 p1 p2 : Vec3 ℝ} (h : normal p0 p1 p2 ≠ .zero) : ∃ r, calcDepth τ p0 p1 p2 = some r := by
  have key : ∀ a b : Vec3 ℝ, a ≠ b → ∃ r, calcSegDist τ a b = some r := by
    intro a b hab
    have : (b.sub a).sqrNorm ≠ 0 := by
      intro e
      apply hab
      simp only [zeo] at e
      have hx : b.x - a.x = 0 := by nlinarith [sq_nonneg (b.x - a.x), sq_nonneg (b.y - a.y), sq_nonneg (b.z - a.z)]
      have hy : b.y - a.y = 0 := by nlinarith [sq_nonneg (b.x - a.x), sq_nonneg (b.y - a.y), sq_nonneg (b.z - a.z)]
      have hz : b.z - a.z = 0 := by nlinarith [sq_nonneg (b.x - a.x), sq_nonneg (b.y - a.y), sq_nonneg (b.z - a.z)]
      ext <;> linarith
    unfold calcSegDist
    dsimp only
    rw [if_neg this]
    exact ⟨_, rfl⟩
  have h01 : p0 ≠ p1 := by
    rintro rfl; exact h (by ext <;> simp only [normal, zeo] <;> ring)
  have h02 : p0 ≠ p2 := by
    rintro rfl; exact h (by ext <;> simp only [normal, zeo] <;> ring)
  have h12 : p1 ≠ p2 := by
    rintro rfl; exact h (by ext <;> simp only [normal, zeo] <;> ring)
  obtain ⟨a, ha⟩ := key _ _ h01
  obtain ⟨b, hb⟩ := key _ _ h02
  obtain ⟨c, hc⟩ := key _ _ h12
  unfold calcDepth
  dsimp only
  split
  · exact ⟨_, rfl⟩
  rw [calcEdges, ha, hb, hc]
  simp only [better]
  split <;> split <;> exact ⟨_, rfl⟩

/-- The point of the contact is common to the hulls. -/
theorem depthPair_mem {τ : ℝ} {xs ys : List (Vec3 ℝ)} {q : Portal} {d pos : Vec3 ℝ} (hg : Good xs ys q) (h0 : 0 < w0 q) (hc : q.s0.v = q.s0.v1.sub q.s0.v2)
    (h1 : Spec.InHull {p | p ∈ xs} q.s0.v1) (h2 : Spec.InHull {p | p ∈ ys} q.s0.v2) (hV : τ ≤ w0 q + w1 q + w2 q + w3 q) (h : q.depthPair τ d = some pos) :
    Spec.InHull {p | p ∈ xs} pos ∧ Spec.InHull {p | p ∈ ys} pos := by
  have p1 := hg.p1
  have p2 := hg.p2
  have p3 := hg.p3
  have hs : 0 < w0 q + w1 q + w2 q + w3 q := by linarith
  have e0 : Vec3.grassmann q.s3.v q.s1.v q.s2.v = w0 q := by simp only [w0, zeo]; ring
  have e2 : Vec3.grassmann q.s3.v q.s0.v q.s1.v = w2 q := by simp only [w2, zeo]; ring
  have hA := Spec.InHull.four h1 (Spec.InHull.self hg.v1.1) (Spec.InHull.self hg.v2.1) (Spec.InHull.self hg.v3.1) h0.le p1.le p2.le p3.le hs
  have hB := Spec.InHull.four h2 (Spec.InHull.self hg.v1.2.1) (Spec.InHull.self hg.v2.2.1) (Spec.InHull.self hg.v3.2.1) h0.le p1.le p2.le p3.le hs
  obtain ⟨zx, zy, zz⟩ := weights_zero q
  rw [hc, hg.v1.2.2, hg.v2.2.2, hg.v3.2.2] at zx zy zz
  simp only [Vec3.sub] at zx zy zz
  unfold Portal.depthPair at h
  dsimp only at h
  rw [e0, e2] at h
  change (if w0 q + w1 q + w2 q + w3 q < τ then _ else q.pairOf (w0 q) (w1 q) (w2 q) (w3 q)) = _ at h
  rw [if_neg (not_lt.2 hV), Portal.pairOf, if_neg hs.ne'] at h
  obtain rfl := Option.some.inj h
  have hne := hs.ne'
  constructor
  · convert hA using 1
    ext <;> simp only [Spec.comb, Portal.wsum, zeo] <;> field_simp <;> linarith
  · convert hB using 1
    ext <;> simp only [Spec.comb, Portal.wsum, zeo] <;> field_simp <;> linarith

end
end Zeo.MPR

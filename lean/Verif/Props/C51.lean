import Verif.Lemmas.GjkRun

/-! # C51: the Gilbert-Johnson-Keerthi algorithm -/

namespace Zeo
open GJK
noncomputable section
open Classical

/-- The pairs of points of the two sets. -/
def GJK.Pairs (xs ys : List (Vec3 ℝ)) (p q : Vec3 ℝ) : Prop := p ∈ xs ∧ q ∈ ys

theorem GJK.supp_pairs {d1 d2 : Data (Vec3 ℝ)} (w1 : d1.WF) (w2 : d2.WF) {xs ys : List (Vec3 ℝ)} (s1 : d1.Shows xs) (s2 : d2.Shows ys)
    (hx : xs ≠ []) (hy : ys ≠ []) : Supp (Pairs xs ys) (supportMap d1 d2) := by
  intro v
  obtain ⟨p, hp, hpm, hpo⟩ := (C36_supportMap d1 w1 xs s1 v.rev).resolve_left fun h => hx h.1
  obtain ⟨q, hq, hqm, hqo⟩ := (C36_supportMap d2 w2 ys s2 v).resolve_left fun h => hy h.1
  refine ⟨p, q, by rw [supportMap, hp, hq], ⟨hpm, hqm⟩, fun q1 q2 ⟨h1, h2⟩ => ?_⟩
  have a1 := hpo q1 h1
  have a2 := hqo q2 h2
  simp only [Vec3.inner, Vec3.sub, Vec3.rev] at a1 a2 ⊢
  linarith

theorem GJK.first_peek {d : Data (Vec3 ℝ)} (w : d.WF) {xs : List (Vec3 ℝ)} (s : d.Shows xs) : d.rewind.peek = xs.head? := by
  have e := C35_shows_unique d _ _ s w.shows
  subst e
  obtain ⟨r1, r2, r3⟩ := w.rewind
  have := r1.peek
  rw [this, r2, r3, List.head?_eq_getElem?]

/-- **An empty set** makes `zGJK` dereference NULL. -/
theorem C51_empty (τ junk : ℝ) (jv : Vec3 ℝ) (fuel : ℕ) (d1 d2 : Data (Vec3 ℝ)) (w1 : d1.WF) (w2 : d2.WF) (xs ys : List (Vec3 ℝ))
    (s1 : d1.Shows xs) (s2 : d2.Shows ys) (h : xs = [] ∨ ys = []) : gjk τ junk jv fuel d1 d2 = some .crash := by
  unfold gjk start
  rw [first_peek w1 s1, first_peek w2 s2]
  rcases h with rfl | rfl
  · rfl
  · cases xs <;> rfl

theorem GJK.pair_csum {τ : ℝ} {P : Vec3 ℝ → Vec3 ℝ → Prop} {s : Simplex} {v : Vec3 ℝ} (h : Inv τ P s v) (f : Slot → Vec3 ℝ) :
    s.pair f = csum (fun i => (s.slot i).s) (fun i => f (s.slot i)) := by
  have go : ∀ (c : Vec3 ℝ) (i : Fin 4), (if (s.slot i).swW = true then c.cat (s.slot i).s (f (s.slot i)) else c) =
      c.cat (s.slot i).s (f (s.slot i)) := by
    intro c i
    split
    · rfl
    · rename_i hn
      have : (s.slot i).s = 0 := by by_contra h0; exact hn ((h.sw i).2 h0)
      rw [this]; ext <;> simp only [zeo] <;> ring
  have e : List.finRange 4 = [0, 1, 2, 3] := by decide
  simp only [Simplex.pair, go, e, List.foldl_cons, List.foldl_nil, csum, Fin.sum_univ_four]
  ext <;> simp only [zeo] <;> ring

theorem GJK.start_live {τ : ℝ} (hτ : 0 ≤ τ) (hτ' : τ ≤ 1/4) (junk : ℝ) {d1 d2 : Data (Vec3 ℝ)} (w1 : d1.WF) (w2 : d2.WF)
    {xs ys : List (Vec3 ℝ)} (s1 : d1.Shows xs) (s2 : d2.Shows ys) (hx : xs ≠ []) (hy : ys ≠ []) {fuel : ℕ} {o : Out}
    (ho : GJK.start τ junk fuel d1 d2 = some o) : ∃ s v, o = .done s v ∧ Live τ (Pairs xs ys) s v ∧
      (s.n < 4 → (∃ p1 p2, supportMap d1 d2 v = some (p1, p2) ∧ (s.checkDup (p1.sub p2) ∨ v.sqrNorm - (p1.sub p2).inner v ≤ τ))) := by
  have hS := supp_pairs w1 w2 s1 s2 hx hy
  unfold GJK.start at ho
  rw [first_peek w1 s1, first_peek w2 s2] at ho
  cases xs with
  | nil => exact absurd rfl hx
  | cons a xs =>
    cases ys with
    | nil => exact absurd rfl hy
    | cons b ys =>
      cases fuel with
      | zero => cases ho
      | succ fuel =>
        dsimp only [List.head?_cons] at ho
        obtain ⟨t1, v1, hL, e⟩ := loop_start hτ hτ' junk hS (a.sub b) fuel
        rw [e] at ho
        split at ho
        · rename_i h4
          exact loop_live hτ hτ' junk hS fuel hL h4 ho
        · rename_i h4
          obtain rfl := Option.some.inj ho
          exact ⟨t1, v1, rfl, hL, fun h => absurd h h4⟩

/-- **What `zGJK` returns, for every tolerance up to 1/4 and every junk value.** Whenever the loop ends
on non-empty sets, it ends without NaN and without a fatal error. The two points are weighted sums of
at most four points of the first set and of as many points of the second set, with the same weights on
both. The weights are those of a convex combination, except that each weight up to the tolerance is
replaced by 0: they add up to a number between `1 - 3 τ` and 1 (if `τ` < 1/4).

If moreover no triangle of differences of the points is sub-tolerance without being degenerate, the
combination `v` of the differences bounds the sets apart: `v·(a - b) ≥ v·v - τ` for all points `a`, `b`
of the two convex hulls. -/
theorem C51_result (τ : ℝ) (hτ : 0 ≤ τ) (hτ' : τ ≤ 1/4) (junk : ℝ) (jv : Vec3 ℝ) (d1 d2 : Data (Vec3 ℝ)) (w1 : d1.WF) (w2 : d2.WF)
    (xs ys : List (Vec3 ℝ)) (s1 : d1.Shows xs) (s2 : d2.Shows ys) (hx : xs ≠ []) (hy : ys ≠ []) (fuel : ℕ) (o : Res)
    (ho : gjk τ junk jv fuel d1 d2 = some o) :
    ∃ b c1 c2, o = .ret b c1 c2 ∧ ∃ (L : Fin 4 → ℝ) (p q : Fin 4 → Vec3 ℝ) (v : Vec3 ℝ),
      (∀ i, L i ≠ 0 → p i ∈ xs ∧ q i ∈ ys) ∧ (∀ i, 0 ≤ L i) ∧ L 0 + L 1 + L 2 + L 3 = 1 ∧
      v = Spec.comb (L 0) (L 1) (L 2) (L 3) ((p 0).sub (q 0)) ((p 1).sub (q 1)) ((p 2).sub (q 2)) ((p 3).sub (q 3)) ∧
      (let S : Fin 4 → ℝ := fun i => if L i ≤ τ then 0 else L i
       c1 = Spec.comb (S 0) (S 1) (S 2) (S 3) (p 0) (p 1) (p 2) (p 3) ∧
       c2 = Spec.comb (S 0) (S 1) (S 2) (S 3) (q 0) (q 1) (q 2) (q 3) ∧
       S 0 + S 1 + S 2 + S 3 ≤ 1 ∧ (τ < 1/4 → 1 - 3 * τ ≤ S 0 + S 1 + S 2 + S 3)) ∧
      (AboveTol τ {x | ∃ a ∈ xs, ∃ b ∈ ys, x = a.sub b} →
        ∀ a b, Spec.InHull {x | x ∈ xs} a → Spec.InHull {x | x ∈ ys} b → Spec.dot v v - τ ≤ Spec.dot v a - Spec.dot v b) := by
  unfold gjk at ho
  rw [Option.map_eq_some_iff] at ho
  obtain ⟨o', ho', rfl⟩ := ho
  obtain ⟨s, v, rfl, hL, hex⟩ := start_live hτ hτ' junk w1 w2 s1 s2 hx hy ho'
  obtain ⟨L, ht, hs, hyy⟩ := hL.lam
  have hwc : ∀ i, L i ≠ 0 → (s.slot i).w = (s.slot i).p1.sub (s.slot i).p2 := fun i hi => (hL.pts i (hyy i hi)).1
  refine ⟨_, _, _, rfl, L, fun i => (s.slot i).p1, fun i => (s.slot i).p2, v, fun i hi => (hL.pts i (hyy i hi)).2, ht.nonneg,
    by rw [← Fin.sum_univ_four]; exact ht.sum, ?_, ⟨?_, ?_, ?_, ?_⟩, ?_⟩
  · rw [← csum_eq L (fun i => (s.slot i).p1.sub (s.slot i).p2), ht.comb]
    have : ∀ i, ∀ f : Vec3 ℝ → ℝ, L i * f (s.slot i).w = L i * f ((s.slot i).p1.sub (s.slot i).p2) := by
      intro i f
      by_cases h0 : L i = 0
      · rw [h0]; ring
      · rw [hwc i h0]
    simp only [csum]
    ext <;> dsimp only
    · exact Finset.sum_congr rfl fun i _ => this i Vec3.x
    · exact Finset.sum_congr rfl fun i _ => this i Vec3.y
    · exact Finset.sum_congr rfl fun i _ => this i Vec3.z
  · rw [pair_csum hL.toInv, csum_eq]; simp only [hs]
  · rw [pair_csum hL.toInv, csum_eq]; simp only [hs]
  · have h1 := ht.sum
    rw [Fin.sum_univ_four] at h1
    have hi : ∀ i, (if L i ≤ τ then 0 else L i) ≤ L i := by intro i; split; exacts [ht.nonneg i, le_rfl]
    have := hi 0; have := hi 1; have := hi 2; have := hi 3
    linarith
  · intro hlt
    have h1 := ht.sum
    rw [Fin.sum_univ_four] at h1
    have hex : ∃ j, τ < L j := by
      by_contra hcon
      push Not at hcon
      have := hcon 0; have := hcon 1; have := hcon 2; have := hcon 3
      linarith
    have lo : ∀ i, L i - τ ≤ (if L i ≤ τ then 0 else L i) := by intro i; split; exacts [by linarith, by linarith]
    obtain ⟨j, hj⟩ := hex
    have hj' : (if L j ≤ τ then 0 else L j) = L j := if_neg (not_le.2 hj)
    have := lo 0; have := lo 1; have := lo 2; have := lo 3
    fin_cases j <;> simp only [Fin.zero_eta, Fin.mk_one, Fin.reduceFinMk] at hj' <;> linarith
  · intro hT a b ha hb
    have hT' : AboveTol τ {x | ∃ q1 q2, Pairs xs ys q1 q2 ∧ x = q1.sub q2} := by
      intro x ⟨x1, x2, hx, ex⟩ y ⟨y1, y2, hy, ey⟩ z ⟨z1, z2, hz, ez⟩
      exact hT x ⟨x1, hx.1, x2, hx.2, ex⟩ y ⟨y1, hy.1, y2, hy.2, ey⟩ z ⟨z1, hz.1, z2, hz.2, ez⟩
    have key : ∀ x ∈ xs, ∀ y ∈ ys, v.inner v - τ ≤ v.inner x - v.inner y := by
      intro x hx' y hy'
      have esub : v.inner (x.sub y) = v.inner x - v.inner y := by simp only [zeo]; ring
      rw [← esub]
      by_cases h4 : s.n < 4
      · obtain ⟨p1, p2, hp, hor⟩ := hex h4
        obtain ⟨q1, q2, hq, hP, hmin⟩ := supp_pairs w1 w2 s1 s2 hx hy v
        rw [hp] at hq
        obtain ⟨rfl, rfl⟩ := Prod.mk.inj (Option.some.inj hq)
        refine le_trans ?_ (hmin x y ⟨hx', hy'⟩)
        rcases hor with ⟨i, hi, hw⟩ | hor
        · have := hL.opt hT' i hi
          rw [hw] at this; linarith
        · have e1 : v.sqrNorm = v.inner v := by simp only [zeo]
          have e2 : (p1.sub p2).inner v = v.inner (p1.sub p2) := by simp only [zeo]; ring
          rw [e1, e2] at hor; linarith
      · have hall : ∀ i, (s.slot i).swW = true := by
          rw [hL.n] at h4
          have : ∀ b : Fin 4 → Bool, ¬ (idx b).length < 4 → ∀ i, b i = true := by decide +kernel
          exact this _ h4
        have hz : v = .zero := ht.four fun i => by
          have := (hL.sw i).1 (hall i)
          rw [hs i] at this
          split at this
          · exact absurd rfl this
          · exact this
        rw [hz]; simp only [Vec3.inner, Vec3.zero]; linarith
    have k1 : ∀ y ∈ ys, v.inner v - τ + v.inner y ≤ v.inner a := fun y hy' =>
      inner_hull (T := {x | x ∈ xs}) (fun x hx' => by have := key x hx' y hy'; linarith) ha
    have k2 := inner_hull (T := {x | x ∈ ys}) (v := v.rev) (c := v.inner v - τ - v.inner a) (fun y hy' => by
      have := k1 y hy'
      have e : v.rev.inner y = - v.inner y := by simp only [zeo]; ring
      rw [e]; linarith) hb
    have e : v.rev.inner b = - v.inner b := by simp only [zeo]; ring
    rw [e] at k2
    show v.inner v - τ ≤ v.inner a - v.inner b
    linarith

/-- **Sets in contact give near points**: if the convex hulls have a common point (and no triangle of
differences is sub-tolerance without being degenerate), the two returned points differ in each
coordinate by at most `√τ + 4 τ R`, where `R` bounds the coordinate differences of the points. -/
theorem C51_contact_near (τ : ℝ) (hτ : 0 ≤ τ) (hτ' : τ ≤ 1/4) (junk : ℝ) (jv : Vec3 ℝ) (d1 d2 : Data (Vec3 ℝ)) (w1 : d1.WF) (w2 : d2.WF)
    (xs ys : List (Vec3 ℝ)) (s1 : d1.Shows xs) (s2 : d2.Shows ys) (hx : xs ≠ []) (hy : ys ≠ []) (fuel : ℕ) (r : Prop) (c1 c2 : Vec3 ℝ)
    (ho : gjk τ junk jv fuel d1 d2 = some (.ret r c1 c2)) (hT : AboveTol τ {x | ∃ a ∈ xs, ∃ b ∈ ys, x = a.sub b})
    (R : ℝ) (hR : ∀ a ∈ xs, ∀ b ∈ ys, |a.x - b.x| ≤ R ∧ |a.y - b.y| ≤ R ∧ |a.z - b.z| ≤ R)
    (hc : ∃ c, Spec.InHull {x | x ∈ xs} c ∧ Spec.InHull {x | x ∈ ys} c) :
    |c1.x - c2.x| ≤ Real.sqrt τ + 4 * τ * R ∧ |c1.y - c2.y| ≤ Real.sqrt τ + 4 * τ * R ∧ |c1.z - c2.z| ≤ Real.sqrt τ + 4 * τ * R := by
  obtain ⟨r', c1', c2', e, L, p, q, v, hm, h0, hs, hv, ⟨e1, e2, -, -⟩, hsep⟩ :=
    C51_result τ hτ hτ' junk jv d1 d2 w1 w2 xs ys s1 s2 hx hy fuel _ ho
  obtain ⟨-, rfl, rfl⟩ := Res.ret.inj e
  obtain ⟨c, hc1, hc2⟩ := hc
  have hvv := hsep hT c c hc1 hc2
  have hR0 : 0 ≤ R := by
    obtain ⟨a, xs', rfl⟩ := List.exists_cons_of_ne_nil hx
    obtain ⟨b, ys', rfl⟩ := List.exists_cons_of_ne_nil hy
    exact (abs_nonneg _).trans (hR a (by simp) b (by simp)).1
  -- one coordinate at a time
  have key : ∀ (x y u : ℝ) (f : Fin 4 → ℝ), u ^ 2 ≤ τ → u = L 0 * f 0 + L 1 * f 1 + L 2 * f 2 + L 3 * f 3 →
      (∀ i, L i ≠ 0 → |f i| ≤ R) →
      x - y = (if L 0 ≤ τ then 0 else L 0) * f 0 + (if L 1 ≤ τ then 0 else L 1) * f 1 + (if L 2 ≤ τ then 0 else L 2) * f 2 +
        (if L 3 ≤ τ then 0 else L 3) * f 3 → |x - y| ≤ Real.sqrt τ + 4 * τ * R := by
    intro x y u f hu hu' hf hxy
    have ub : |u| ≤ Real.sqrt τ := Real.abs_le_sqrt hu
    have one : ∀ i, |(L i - (if L i ≤ τ then 0 else L i)) * f i| ≤ τ * R := by
      intro i
      split
      · rename_i hle
        by_cases hz : L i = 0
        · rw [hz]; simp; positivity
        · rw [sub_zero, abs_mul, abs_of_nonneg (h0 i)]
          exact mul_le_mul hle (hf i hz) (abs_nonneg _) hτ
      · rw [sub_self, zero_mul, abs_zero]; positivity
    have e : x - y = u - (L 0 - (if L 0 ≤ τ then 0 else L 0)) * f 0 - (L 1 - (if L 1 ≤ τ then 0 else L 1)) * f 1 -
        (L 2 - (if L 2 ≤ τ then 0 else L 2)) * f 2 - (L 3 - (if L 3 ≤ τ then 0 else L 3)) * f 3 := by
      rw [hxy, hu']; ring
    have b0 := abs_le.1 (one 0); have b1 := abs_le.1 (one 1); have b2 := abs_le.1 (one 2); have b3 := abs_le.1 (one 3)
    have bu := abs_le.1 ub
    rw [e, abs_le]
    constructor <;> linarith
  simp only [Spec.dot] at hvv
  have hx2 : v.x ^ 2 ≤ τ := by nlinarith [mul_self_nonneg v.y, mul_self_nonneg v.z]
  have hy2 : v.y ^ 2 ≤ τ := by nlinarith [mul_self_nonneg v.x, mul_self_nonneg v.z]
  have hz2 : v.z ^ 2 ≤ τ := by nlinarith [mul_self_nonneg v.y, mul_self_nonneg v.x]
  refine ⟨key _ _ v.x (fun i => (p i).x - (q i).x) hx2 (by rw [hv]; rfl) (fun i hi => (hR _ (hm i hi).1 _ (hm i hi).2).1) ?_,
    key _ _ v.y (fun i => (p i).y - (q i).y) hy2 (by rw [hv]; rfl) (fun i hi => (hR _ (hm i hi).1 _ (hm i hi).2).2.1) ?_,
    key _ _ v.z (fun i => (p i).z - (q i).z) hz2 (by rw [hv]; rfl) (fun i hi => (hR _ (hm i hi).1 _ (hm i hi).2).2.2) ?_⟩
  all_goals (rw [e1, e2]; simp only [Spec.comb]; ring)

/-- **A tetrahedron means contact**: if the loop ends with four live slots the two returned points are
equal, they are a point of both convex hulls, and the function returns true. -/
theorem C51_contact (τ : ℝ) (hτ : 0 ≤ τ) (hτ' : τ ≤ 1/4) (junk : ℝ) (jv : Vec3 ℝ) (d1 d2 : Data (Vec3 ℝ)) (w1 : d1.WF) (w2 : d2.WF)
    (xs ys : List (Vec3 ℝ)) (s1 : d1.Shows xs) (s2 : d2.Shows ys) (hx : xs ≠ []) (hy : ys ≠ []) (fuel : ℕ) (s : Simplex) (v : Vec3 ℝ)
    (ho : GJK.start τ junk fuel d1 d2 = some (.done s v)) (h4 : s.n = 4) :
    ∃ c, gjk τ junk jv fuel d1 d2 = some (.ret True c c) ∧ Spec.InHull {x | x ∈ xs} c ∧ Spec.InHull {x | x ∈ ys} c := by
  obtain ⟨s', v', e, hL, -⟩ := start_live hτ hτ' junk w1 w2 s1 s2 hx hy ho
  obtain ⟨rfl, rfl⟩ := Out.done.inj e
  obtain ⟨L, ht, hs, hyy⟩ := hL.lam
  have hall : ∀ i, (s.slot i).swW = true := by
    have hn := hL.n
    rw [h4] at hn
    have : ∀ b : Fin 4 → Bool, 4 = (idx b).length → ∀ i, b i = true := by decide +kernel
    exact this _ hn
  have hne : ∀ i, L i ≠ 0 ∧ (s.slot i).s = L i := fun i => by
    have := (hL.sw i).1 (hall i)
    rw [hs i] at this ⊢
    split at this
    · exact absurd rfl this
    · rename_i hc; exact ⟨this, if_neg hc⟩
  have hz : v = .zero := ht.four fun i => (hne i).1
  have hsL : (fun i => (s.slot i).s) = L := funext fun i => (hne i).2
  have hpts := fun i => hL.pts i (hyy i (hne i).1)
  have e1 := pair_csum hL.toInv Slot.p1
  have e2 := pair_csum hL.toInv Slot.p2
  rw [hsL] at e1 e2
  have hsub : csum L (fun i => (s.slot i).p1) = csum L (fun i => (s.slot i).p2) := by
    have hc := ht.comb
    rw [hz] at hc
    have hx0 := congrArg Vec3.x hc
    have hy0 := congrArg Vec3.y hc
    have hz0 := congrArg Vec3.z hc
    simp only [csum, (hpts _).1, Vec3.sub, Vec3.zero, mul_sub, Finset.sum_sub_distrib] at hx0 hy0 hz0
    ext <;> simp only [csum]
    · linarith
    · linarith
    · linarith
  refine ⟨csum L fun i => (s.slot i).p1, ?_, hull_of_csum ht.nonneg ht.sum fun i _ => (hpts i).2.1, ?_⟩
  · rw [gjk, ho]
    have hc : s.check τ jv = True := by simp [Simplex.check, h4]
    simp only [Option.map_some, finish, hc, e1, e2, ← hsub]
  · rw [hsub]; exact hull_of_csum ht.nonneg ht.sum fun i _ => (hpts i).2.2

/-- **The idealised algorithm (zero tolerance) is correct and terminates**: for all non-empty sets there
is a number of rounds after which it has returned; the two points are a pair of nearest points of the
two convex hulls. -/
theorem C51_nearest_partial (junk : ℝ) (jv : Vec3 ℝ) (d1 d2 : Data (Vec3 ℝ)) (w1 : d1.WF) (w2 : d2.WF)
    (xs ys : List (Vec3 ℝ)) (s1 : d1.Shows xs) (s2 : d2.Shows ys) (hx : xs ≠ []) (hy : ys ≠ []) :
    ∃ N, ∀ fuel, N ≤ fuel → ∃ r c1 c2, gjk 0 junk jv fuel d1 d2 = some (.ret r c1 c2) ∧
      Spec.InHull {x | x ∈ xs} c1 ∧ Spec.InHull {x | x ∈ ys} c2 ∧
      ∀ a b, Spec.InHull {x | x ∈ xs} a → Spec.InHull {x | x ∈ ys} b → Spec.sqd c1 c2 ≤ Spec.sqd a b := by
  have hS := supp_pairs w1 w2 s1 s2 hx hy
  obtain ⟨a, xs', rfl⟩ := List.exists_cons_of_ne_nil hx
  obtain ⟨b, ys', rfl⟩ := List.exists_cons_of_ne_nil hy
  set M : Finset (Vec3 ℝ) := Finset.image₂ Vec3.sub (a :: xs').toFinset (b :: ys').toFinset with hM
  have hMm : ∀ q1 q2, Pairs (a :: xs') (b :: ys') q1 q2 → q1.sub q2 ∈ M := by
    intro q1 q2 ⟨h1, h2⟩
    exact Finset.mem_image₂_of_mem (List.mem_toFinset.2 h1) (List.mem_toFinset.2 h2)
  have hterm : ∀ fuel, M.powerset.card + 2 ≤ fuel → ∃ o, GJK.start 0 junk fuel d1 d2 = some o := by
    intro fuel hf
    obtain ⟨fuel, rfl⟩ : ∃ f, fuel = f + 1 := ⟨fuel - 1, by omega⟩
    unfold GJK.start
    rw [first_peek w1 s1, first_peek w2 s2]
    dsimp only [List.head?_cons]
    obtain ⟨t1, v1, hL, e⟩ := loop_start le_rfl (by norm_num) junk hS (a.sub b) fuel
    rw [e]
    split
    · rename_i h4
      refine loop_ends junk hS M hMm fuel hL h4 ?_
      have : rank M v1 ≤ M.powerset.card := Finset.card_filter_le _ _
      omega
    · exact ⟨_, rfl⟩
  refine ⟨M.powerset.card + 2, fun fuel hf => ?_⟩
  obtain ⟨o, ho⟩ := hterm fuel hf
  have hg : gjk 0 junk jv fuel d1 d2 = some (finish 0 jv o) := by rw [gjk, ho]; rfl
  obtain ⟨r, c1, c2, e, L, p, q, v, hm, h0, hs, hv, ⟨e1, e2, -, -⟩, hsep⟩ :=
    C51_result 0 le_rfl (by norm_num) junk jv d1 d2 w1 w2 _ _ s1 s2 hx hy fuel _ hg
  have hS0 : ∀ i, (if L i ≤ 0 then 0 else L i) = L i := by
    intro i; split
    · rename_i h; exact (le_antisymm h (h0 i)).symm
    · rfl
  simp only [hS0] at e1 e2
  have hs' : ∑ i, L i = 1 := by rw [Fin.sum_univ_four]; exact hs
  have i1 : Spec.InHull {x | x ∈ a :: xs'} c1 := by
    rw [e1, ← csum_eq]; exact hull_of_csum h0 hs' fun i hi => (hm i hi).1
  have i2 : Spec.InHull {x | x ∈ b :: ys'} c2 := by
    rw [e2, ← csum_eq]; exact hull_of_csum h0 hs' fun i hi => (hm i hi).2
  refine ⟨r, c1, c2, by rw [hg, e], i1, i2, fun x y hx' hy' => ?_⟩
  have hvc : v = c1.sub c2 := by rw [hv, e1, e2]; ext <;> simp only [Spec.comb, Vec3.sub] <;> ring
  have hk := hsep (aboveTol_zero _) x y hx' hy'
  rw [hvc] at hk
  have hcs : 0 ≤ (c1.x - c2.x - (x.x - y.x))^2 + (c1.y - c2.y - (x.y - y.y))^2 + (c1.z - c2.z - (x.z - y.z))^2 := by positivity
  simp only [Spec.dot, Vec3.sub] at hk
  simp only [Spec.sqd]
  nlinarith [hk, hcs]

/-- **A point against a set**: `zGJKPoint` returns what `zGJK` returns against the set of that single
point (so all the theorems above hold for it), except that `c2`, which it does not have, is unused. -/
theorem C51_point (τ junk : ℝ) (jv : Vec3 ℝ) (fuel : ℕ) (d1 d2 : Data (Vec3 ℝ)) (w1 : d1.WF) (w2 : d2.WF) (xs : List (Vec3 ℝ))
    (s1 : d1.Shows xs) (p : Vec3 ℝ) (s2 : d2.Shows [p]) : gjkPoint τ junk jv fuel d1 p = gjk τ junk jv fuel d1 d2 := by
  have hsup : supportMap d1 d2 = pointSupportMap d1 p := by
    funext v
    obtain ⟨q, hq, hqm, -⟩ := (C36_supportMap d2 w2 [p] s2 v).resolve_left fun h => by cases h.1
    rw [List.mem_singleton] at hqm
    subst hqm
    rw [supportMap, pointSupportMap, hq]
    cases d1.support3 v.rev <;> rfl
  unfold gjkPoint gjk start
  rw [first_peek w1 s1, first_peek w2 s2, hsup]
  cases xs <;> rfl

/-- The hypotheses are met by an edge and a far point; the two hulls are at distance 2. -/
example : ∃ (d1 d2 : Data (Vec3 ℝ)) (xs ys : List (Vec3 ℝ)), d1.WF ∧ d2.WF ∧ d1.Shows xs ∧ d2.Shows ys ∧ xs ≠ [] ∧ ys ≠ [] ∧
    (∃ fuel r c1 c2, gjk 0 0 .zero fuel d1 d2 = some (.ret r c1 c2) ∧ 4 ≤ Spec.sqd c1 c2) := by
  have wf : ∀ xs : List (Vec3 ℝ), (Data.assignList xs).WF := fun xs =>
    (Data.WF.rewind (d := .lst true xs none) (by intro k hk; cases hk)).1
  refine ⟨.assignList [⟨0, 0, 0⟩, ⟨1, 0, 0⟩], .assignList [⟨0, 2, 0⟩], _, _, wf _, wf _, (wf _).shows, (wf _).shows, by decide, by decide, ?_⟩
  obtain ⟨N, hN⟩ := C51_nearest_partial 0 .zero _ _ (wf [⟨0, 0, 0⟩, ⟨1, 0, 0⟩]) (wf [⟨0, 2, 0⟩]) _ _ (wf _).shows (wf _).shows (by decide) (by decide)
  obtain ⟨r, c1, c2, e, h1, h2, -⟩ := hN N le_rfl
  refine ⟨N, r, c1, c2, e, ?_⟩
  have k1 := inner_hull (v := ⟨0, -1, 0⟩) (c := 0) (fun x hx => by
    rcases List.mem_cons.1 hx with rfl | hx
    · norm_num [Vec3.inner]
    · rw [List.mem_singleton.1 hx]; norm_num [Vec3.inner]) h1
  have k2 := inner_hull (v := ⟨0, 1, 0⟩) (c := 2) (fun x hx => by rw [List.mem_singleton.1 hx]; norm_num [Vec3.inner]) h2
  simp only [Vec3.inner] at k1 k2
  simp only [Spec.sqd]
  nlinarith [sq_nonneg (c1.x - c2.x), sq_nonneg (c1.z - c2.z)]

/-- **The returned truth value (zero tolerance, live slots in front).** If the slots in use are the first ones, the
value true means contact, and with one, three or four of them contact means true. With two slots the value is false
unless the first difference is zero: the distance to a line is compared by `<`. Missing: other arrangements of the slots
(`C51_false_contact`, `C51_missed_contact`). -/
theorem C51_return_partial (junk : ℝ) (jv : Vec3 ℝ) (d1 d2 : Data (Vec3 ℝ)) (w1 : d1.WF) (w2 : d2.WF)
    (xs ys : List (Vec3 ℝ)) (s1 : d1.Shows xs) (s2 : d2.Shows ys) (hx : xs ≠ []) (hy : ys ≠ []) (fuel : ℕ) (s : Simplex) (v : Vec3 ℝ)
    (ho : GJK.start 0 junk fuel d1 d2 = some (.done s v)) (hlead : ∀ i, (s.slot i).swW = true ↔ i.val < s.n) :
    ∃ r c1 c2, gjk 0 junk jv fuel d1 d2 = some (.ret r c1 c2) ∧
      (r → ∃ c, Spec.InHull {x | x ∈ xs} c ∧ Spec.InHull {x | x ∈ ys} c) ∧
      ((∃ c, Spec.InHull {x | x ∈ xs} c ∧ Spec.InHull {x | x ∈ ys} c) → s.n ≠ 2 → r) ∧
      (s.n = 2 → (r ↔ (s.slot 0).w = .zero)) := by
  have hg : gjk 0 junk jv fuel d1 d2 = some (.ret (s.check 0 jv) (s.pair Slot.p1) (s.pair Slot.p2)) := by rw [gjk, ho]; rfl
  refine ⟨_, _, _, hg, ?_⟩
  obtain ⟨s', v', e, hL, -⟩ := start_live le_rfl (by norm_num) junk w1 w2 s1 s2 hx hy ho
  obtain ⟨rfl, rfl⟩ := Out.done.inj e
  obtain ⟨L, ht, hs, hyy⟩ := hL.lam
  have hsL' : ∀ i, (s.slot i).s = L i := by
    intro i
    rw [hs i]
    split
    · rename_i h; exact (le_antisymm h (ht.nonneg i)).symm
    · rfl
  have hsL : (fun i => (s.slot i).s) = L := funext hsL'
  have live : ∀ i, L i ≠ 0 ↔ i.val < s.n := fun i => by rw [← hsL' i, ← hL.sw i, hlead i]
  have e1 := pair_csum hL.toInv Slot.p1
  have e2 := pair_csum hL.toInv Slot.p2
  rw [hsL] at e1 e2
  have i1 : Spec.InHull {x | x ∈ xs} (s.pair Slot.p1) := by
    rw [e1]; exact hull_of_csum ht.nonneg ht.sum fun i hi => (hL.pts i (hyy i hi)).2.1
  have i2 : Spec.InHull {x | x ∈ ys} (s.pair Slot.p2) := by
    rw [e2]; exact hull_of_csum ht.nonneg ht.sum fun i hi => (hL.pts i (hyy i hi)).2.2
  have hv : v = (s.pair Slot.p1).sub (s.pair Slot.p2) := by
    rw [e1, e2, ht.comb]
    have k : ∀ f : Vec3 ℝ → ℝ, (∀ a b : Vec3 ℝ, f (a.sub b) = f a - f b) →
        ∑ i, L i * f (s.slot i).w = ∑ i, L i * f (s.slot i).p1 - ∑ i, L i * f (s.slot i).p2 := by
      intro f hf
      rw [← Finset.sum_sub_distrib]
      refine Finset.sum_congr rfl fun i _ => ?_
      by_cases h0 : L i = 0
      · rw [h0]; ring
      · rw [(hL.pts i (hyy i h0)).1, hf]; ring
    ext
    · exact k Vec3.x fun _ _ => rfl
    · exact k Vec3.y fun _ _ => rfl
    · exact k Vec3.z fun _ _ => rfl
  have meet : (∃ c, Spec.InHull {x | x ∈ xs} c ∧ Spec.InHull {x | x ∈ ys} c) ↔ v = .zero := by
    constructor
    · intro hc
      obtain ⟨R, hR⟩ : ∃ R : ℝ, ∀ a ∈ xs, ∀ b ∈ ys, |a.x - b.x| ≤ R ∧ |a.y - b.y| ≤ R ∧ |a.z - b.z| ≤ R := by
        have fin : ∀ f : Vec3 ℝ × Vec3 ℝ → ℝ, ∃ R, ∀ q ∈ (xs ×ˢ ys), f q ≤ R := by
          intro f
          induction (xs ×ˢ ys) with
          | nil => exact ⟨0, by simp⟩
          | cons q l ih =>
            obtain ⟨R, hR⟩ := ih
            exact ⟨max (f q) R, fun q' hq' => by
              rcases List.mem_cons.1 hq' with rfl | h
              · exact le_max_left _ _
              · exact (hR q' h).trans (le_max_right _ _)⟩
        obtain ⟨R, hR⟩ := fin fun q => max |q.1.x - q.2.x| (max |q.1.y - q.2.y| |q.1.z - q.2.z|)
        refine ⟨R, fun a ha b hb => ?_⟩
        have := hR (a, b) (by simp [ha, hb])
        simp only [max_le_iff] at this
        exact ⟨this.1, this.2.1, this.2.2⟩
      obtain ⟨k1, k2, k3⟩ := C51_contact_near 0 le_rfl (by norm_num) junk jv d1 d2 w1 w2 xs ys s1 s2 hx hy fuel _ _ _ hg
        (aboveTol_zero _) R hR hc
      simp only [Real.sqrt_zero, mul_zero, zero_mul, add_zero, abs_nonpos_iff] at k1 k2 k3
      rw [hv]
      ext <;> assumption
    · intro h0
      refine ⟨s.pair Slot.p1, i1, ?_⟩
      have : s.pair Slot.p1 = s.pair Slot.p2 := by
        rw [h0] at hv
        have hx0 := congrArg Vec3.x hv
        have hy0 := congrArg Vec3.y hv
        have hz0 := congrArg Vec3.z hv
        simp only [zeo] at hx0 hy0 hz0
        ext <;> linarith
      rw [this]; exact i2
  rw [meet]
  have tol0 : ∀ a : Vec3 ℝ, a.isTol 0 ↔ a = .zero := by
    intro a
    have hz : ∀ r : ℝ, zIsTol r 0 ↔ r = 0 := fun r => by unfold zIsTol; exact abs_nonpos_iff
    simp only [Vec3.isTol, hz]
    constructor
    · rintro ⟨hx, hy, hz⟩; ext <;> assumption
    · rintro rfl; exact ⟨rfl, rfl, rfl⟩
  have vz : v.inner v ≤ 0 → v = .zero := by
    intro h
    simp only [Vec3.inner] at h
    ext
    · show v.x = 0; nlinarith [sq_nonneg v.x, sq_nonneg v.y, sq_nonneg v.z]
    · show v.y = 0; nlinarith [sq_nonneg v.x, sq_nonneg v.y, sq_nonneg v.z]
    · show v.z = 0; nlinarith [sq_nonneg v.x, sq_nonneg v.y, sq_nonneg v.z]
  have w0z : 0 < s.n → (s.slot 0).w = .zero → v = .zero := by
    intro hn h0
    apply vz
    have := hL.opt (aboveTol_zero _) 0 (hyy 0 ((live 0).2 hn))
    rw [h0] at this
    simpa [zeo] using this
  have hsum := ht.sum
  have hcx := congrArg Vec3.x ht.comb
  have hcy := congrArg Vec3.y ht.comb
  have hcz := congrArg Vec3.z ht.comb
  rw [Fin.sum_univ_four] at hsum
  simp only [csum, Fin.sum_univ_four] at hcx hcy hcz
  have hn4 : s.n ≤ 4 := by rw [hL.n]; exact (List.length_filter_le _ _).trans (by simp)
  have zero : ∀ i : Fin 4, ¬ i.val < s.n → L i = 0 := fun i hi => by
    by_contra h; exact hi ((live i).1 h)
  have sub0 : ∀ a : Vec3 ℝ, Vec3.zero.sub a = a.rev := fun a => by simp only [zeo]; ext <;> simp
  have rev0 : ∀ a : Vec3 ℝ, a.rev = .zero ↔ a = .zero := by
    intro a
    constructor
    · intro h
      have hx0 := congrArg Vec3.x h
      have hy0 := congrArg Vec3.y h
      have hz0 := congrArg Vec3.z h
      simp only [zeo, neg_eq_zero] at hx0 hy0 hz0
      ext <;> assumption
    · rintro rfl; simp only [zeo]; ext <;> simp
  rcases (by omega : s.n = 0 ∨ s.n = 1 ∨ s.n = 2 ∨ s.n = 3 ∨ s.n = 4) with hn | hn | hn | hn | hn
  · exfalso
    rw [zero 0 (by omega), zero 1 (by omega), zero 2 (by omega), zero 3 (by omega)] at hsum
    norm_num at hsum
  · have z1 := zero 1 (by rw [hn]; decide)
    have z2 := zero 2 (by rw [hn]; decide)
    have z3 := zero 3 (by rw [hn]; decide)
    rw [z1, z2, z3] at hsum hcx hcy hcz
    have h1 : L 0 = 1 := by linarith
    rw [h1] at hcx hcy hcz
    have hw : v = (s.slot 0).w := by ext <;> linarith
    have hck : s.check 0 jv ↔ (s.slot 0).w = .zero := by
      simp only [Simplex.check, hn]
      rw [tol0]
      have : (s.slot 0).w.sub .zero = (s.slot 0).w := by simp only [zeo]; ext <;> simp
      rw [this]
    rw [hck]
    exact ⟨fun h => by rw [hw, h], fun h _ => by rw [← hw, h], fun h => absurd h (by omega)⟩
  · have hck : s.check 0 jv ↔ (s.slot 0).w = .zero := by
      simp only [Simplex.check, hn, Edge3.pointIsOnLine]
      by_cases h0 : (Vec3.zero.sub (s.slot 0).w).isTol 0
      · rw [if_pos h0]
        rw [tol0, sub0, rev0] at h0
        simp [h0]
      · rw [if_neg h0]
        rw [tol0, sub0, rev0] at h0
        constructor
        · intro h
          exact absurd h (not_lt.2 (Real.sqrt_nonneg _))
        · intro h; exact absurd h h0
    rw [hck]
    exact ⟨fun h => w0z (by omega) h, fun _ h => absurd hn h, fun _ => Iff.rfl⟩
  · have z3 := zero 3 (by rw [hn]; decide)
    have l3 : ∀ i, i ≠ (3 : Fin 4) → L i ≠ 0 := by
      intro i hi
      rw [live i, hn]
      revert i; decide
    rw [z3] at hsum hcx hcy hcz
    have hck : s.check 0 jv ↔ (s.slot 0).w = .zero ∨ (Tri3.outerProd (s.slot 0).w (s.slot 1).w (s.slot 2).w).inner (s.slot 0).w = 0 := by
      simp only [Simplex.check, hn, Tri3.pointIsOnPlane]
      have hv0 : (Tri3.create 0 (s.slot 0).w (s.slot 1).w (s.slot 2).w).2.v0 = (s.slot 0).w := by
        simp only [Tri3.create]; split <;> rfl
      rw [hv0]
      by_cases h0 : (Vec3.zero.sub (s.slot 0).w).isTol 0
      · rw [if_pos h0]
        rw [tol0, sub0, rev0] at h0
        simp [h0]
      · rw [if_neg h0]
        have hpos := Vec3.norm_pos_of_not_isTol le_rfl h0
        have hz : ∀ r : ℝ, zIsTol r 0 ↔ r = 0 := fun r => by unfold zIsTol; exact abs_nonpos_iff
        rw [hz, Vec3.normalize, if_neg h0]
        rw [tol0, sub0, rev0] at h0
        have ez : (Vec3.zero.sub (s.slot 0).w).normalizeNC.2.inner (Tri3.create 0 (s.slot 0).w (s.slot 1).w (s.slot 2).w).2.norm =
            -(1 / (Vec3.zero.sub (s.slot 0).w).norm) *
              (Tri3.create 0 (s.slot 0).w (s.slot 1).w (s.slot 2).w).2.norm.inner (s.slot 0).w := by
          generalize (Tri3.create 0 (s.slot 0).w (s.slot 1).w (s.slot 2).w).2.norm = m
          simp only [Vec3.normalizeNC]
          generalize (Vec3.zero.sub (s.slot 0).w).norm = k
          simp only [zeo]; ring
        rw [ez, mul_eq_zero, or_iff_right (by simp only [neg_eq_zero, one_div, inv_eq_zero]; exact hpos.ne'), or_iff_right h0]
        simp only [Tri3.create]
        by_cases hc : (Tri3.outerProd (s.slot 0).w (s.slot 1).w (s.slot 2).w).isTol 0
        · rw [if_pos hc]
        · rw [if_neg hc, Vec3.normalize, if_neg hc]
          have hp2 := Vec3.norm_pos_of_not_isTol le_rfl hc
          generalize Tri3.outerProd (s.slot 0).w (s.slot 1).w (s.slot 2).w = m at hp2 ⊢
          have em : (m.normalizeNC).2.inner (s.slot 0).w = 1 / m.norm * m.inner (s.slot 0).w := by
            simp only [Vec3.normalizeNC]
            generalize m.norm = k
            simp only [zeo]; ring
          show (m.normalizeNC).2.inner (s.slot 0).w = 0 ↔ _
          rw [em, mul_eq_zero, or_iff_right (by simp only [one_div, inv_eq_zero]; exact hp2.ne')]
    rw [hck]
    refine ⟨fun h => ?_, fun h _ => .inr ?_, fun h => absurd h (by omega)⟩
    · rcases h with h | h
      · exact w0z (by omega) h
      · by_contra hvn
        have hvv : v.inner .zero ≠ v.inner v := fun he => hvn (vz (by rw [← he]; simp [zeo]))
        have h3 := (ht.three 3 z3 l3).2 .zero hvv
        rw [(vol_facet (fun i => (s.slot i).w) .zero).2.2.2.1] at h3
        apply h3
        rw [sub0]
        have : ∀ m a : Vec3 ℝ, m.inner a.rev = - m.inner a := fun m a => by simp only [zeo]; ring
        rw [this, h, neg_zero]
    · rw [h] at hcx hcy hcz
      simp only [zeo] at hcx hcy hcz
      obtain h0 : L 0 = 1 - L 1 - L 2 := by linarith
      rw [h0] at hcx hcy hcz
      simp only [Tri3.outerProd, zeo]
      generalize (s.slot 0).w = a at *
      generalize (s.slot 1).w = b at *
      generalize (s.slot 2).w = d at *
      linear_combination (-((b.y - a.y) * (d.z - b.z) - (b.z - a.z) * (d.y - b.y))) * hcx - ((b.z - a.z) * (d.x - b.x) - (b.x - a.x) * (d.z - b.z)) * hcy -
        ((b.x - a.x) * (d.y - b.y) - (b.y - a.y) * (d.x - b.x)) * hcz
  · refine ⟨fun _ => ht.four fun i => (live i).2 (by rw [hn]; exact i.2), fun _ _ => ?_, fun h => absurd h (by omega)⟩
    simp [Simplex.check, hn]

end
end Zeo

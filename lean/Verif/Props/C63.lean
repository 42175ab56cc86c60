import Verif.Lemmas.Hull2DLoop
import Verif.Spec.Mesh

/-! # C63: the planar convex hull

`zVec3DDataConvexHull2D` on points of a plane returns exactly the extreme points, each once, in clockwise order. -/

namespace Zeo
noncomputable section
open Classical

/-- What a sorting routine promises: a permutation, in order whenever the comparison is a total preorder on the
elements. -/
def Spec.IsSort (sort : (Vec3 ℝ → Vec3 ℝ → ℤ) → List (Vec3 ℝ) → List (Vec3 ℝ)) : Prop :=
  ∀ cmp l, (sort cmp l).Perm l ∧
    ((∀ a ∈ l, ∀ b ∈ l, cmp a b ≤ 0 ∨ cmp b a ≤ 0) →
     (∀ a ∈ l, ∀ b ∈ l, ∀ c ∈ l, cmp a b ≤ 0 → cmp b c ≤ 0 → cmp a c ≤ 0) →
      (sort cmp l).Pairwise fun a b => cmp a b ≤ 0)

/-- The points lie on a common plane. -/
def Spec.Coplanar (S : Set (Vec3 ℝ)) : Prop := ∃ n : Vec3 ℝ, n ≠ .zero ∧ ∃ c, ∀ p ∈ S, Spec.dot n p = c

/-- The points lie on a common line. -/
def Spec.Collinear (S : Set (Vec3 ℝ)) : Prop :=
  ∃ o d : Vec3 ℝ, ∀ p ∈ S, ∃ k, p = ⟨o.x + k * d.x, o.y + k * d.y, o.z + k * d.z⟩

/-- `v` is a point of `S` that the others do not enclose. -/
def Spec.Extreme (S : Set (Vec3 ℝ)) (v : Vec3 ℝ) : Prop := v ∈ S ∧ ¬ Spec.InHull {q | q ∈ S ∧ q ≠ v} v

/-- No two points differ by a nonzero amount that the tolerance hides, along either base vector or in all
coordinates. Zero tolerance always resolves. -/
def Spec.Resolved (τ : ℝ) (s0 s1 : Vec3 ℝ) (S : Set (Vec3 ℝ)) : Prop :=
  ∀ p ∈ S, ∀ q ∈ S,
    (|Spec.dot p s0 - Spec.dot q s0| ≤ τ → Spec.dot p s0 = Spec.dot q s0) ∧
    (|Spec.dot p s1 - Spec.dot q s1| ≤ τ → Spec.dot p s1 = Spec.dot q s1) ∧
    (|p.x - q.x| ≤ τ → |p.y - q.y| ≤ τ → |p.z - q.z| ≤ τ → p = q)

open Hull2D

/-- What the bases guarantee. -/
private theorem base2_some (τ : ℝ) (t a : Vec3 ℝ) (ha : ¬ a.isTol τ) (hτ : 0 ≤ τ) : ∀ l s, base2 τ t a l = some s →
    ∃ p ∈ l, ∃ j k : ℝ, 0 < j ∧ 0 < k ∧ s.1 = a.mul j ∧ s.2 = ((a.outer (p.sub t)).outer a).mul k ∧
      ¬ (a.outer (p.sub t)).isTol τ
  | [], s, h => by simp [base2] at h
  | p :: l, s, h => by
    simp only [base2] at h
    split at h
    · rename_i hc
      have h := Option.some.inj h
      have hnorm : ∀ w : Vec3 ℝ, ∃ k : ℝ, 0 < k ∧ (w.normalize τ w).2 = w.mul k := by
        intro w
        unfold Vec3.normalize
        split
        · exact ⟨1, one_pos, by simp [zeo]⟩
        · rename_i hw
          refine ⟨1 / w.norm, ?_, rfl⟩
          have : 0 < w.norm := by
            rcases (Real.sqrt_nonneg w.sqrNorm).lt_or_eq with h | h
            · exact h
            · exfalso
              apply hw
              have h0 : w.sqrNorm = 0 := (Real.sqrt_eq_zero (by simp only [zeo]; nlinarith [mul_self_nonneg w.x, mul_self_nonneg w.y, mul_self_nonneg w.z])).1 h.symm
              simp only [zeo] at h0
              have hx : w.x = 0 := by nlinarith [mul_self_nonneg w.x, mul_self_nonneg w.y, mul_self_nonneg w.z]
              have hy : w.y = 0 := by nlinarith [mul_self_nonneg w.x, mul_self_nonneg w.y, mul_self_nonneg w.z]
              have hz : w.z = 0 := by nlinarith [mul_self_nonneg w.x, mul_self_nonneg w.y, mul_self_nonneg w.z]
              simp [Vec3.isTol, zIsTol, hx, hy, hz, hτ]
          positivity
      obtain ⟨j, hj, ej⟩ := hnorm a
      obtain ⟨k, hk, ek⟩ := hnorm ((a.outer (p.sub t)).outer a)
      exact ⟨p, by simp, j, k, hj, hk, by rw [← h]; exact ej, by rw [← h]; exact ek, hc.2⟩
    · obtain ⟨q, hq, h'⟩ := base2_some τ t a ha hτ l s h
      exact ⟨q, List.mem_cons_of_mem _ hq, h'⟩

private theorem base1_some (τ : ℝ) (t : Vec3 ℝ) (hτ : 0 ≤ τ) : ∀ l s, base1 τ t l = some s →
    ∃ o ∈ l, ∃ p ∈ l, ∃ j k : ℝ, 0 < j ∧ 0 < k ∧ s.1 = (o.sub t).mul j ∧
      s.2 = (((o.sub t).outer (p.sub t)).outer (o.sub t)).mul k ∧ ¬ ((o.sub t).outer (p.sub t)).isTol τ
  | [], s, h => by simp [base1] at h
  | o :: l, s, h => by
    simp only [base1] at h
    split at h
    · rename_i hc
      obtain ⟨p, hp, h'⟩ := base2_some τ t _ hc hτ l s h
      exact ⟨o, by simp, p, by simp [hp], h'⟩
    · obtain ⟨o', ho, p', hp, h'⟩ := base1_some τ t hτ l s h
      exact ⟨o', by simp [ho], p', by simp [hp], h'⟩

/-- The frame of a planar point set: orthogonal nonzero bases in the plane, and a triangle of points. -/
private structure Fr (l : List (Vec3 ℝ)) (s0 s1 : Vec3 ℝ) : Prop where
  ex : ∃ t ∈ l, ∃ o ∈ l, ∃ p ∈ l, crs (·.inner s0) (·.inner s1) t o p ≠ 0
  inj : ∀ n : Vec3 ℝ, n ≠ .zero → ∀ c, (∀ p ∈ l, Spec.dot n p = c) → ∀ p q, Spec.dot n p = c → Spec.dot n q = c →
    p.inner s0 = q.inner s0 → p.inner s1 = q.inner s1 → p = q
  nrm : ∀ n : Vec3 ℝ, n ≠ .zero → ∀ c, (∀ p ∈ l, Spec.dot n p = c) → ∀ p ∈ l, ∀ q ∈ l,
    Spec.dot (s0.outer s1) (p.sub q) = 0

private theorem base_fr (τ : ℝ) (hτ : 0 ≤ τ) (l : List (Vec3 ℝ)) (s : Vec3 ℝ × Vec3 ℝ) (h : base τ l = some s) :
    Fr l s.1 s.2 := by
  cases l with
  | nil => simp [base] at h
  | cons t l =>
    obtain ⟨o, ho, p, hp, j, k, hj, hk, e0, e1, hn⟩ := base1_some τ t hτ l s h
    set a := o.sub t with ha
    set b := p.sub t with hb
    set n := a.outer b with hndef
    have hn2 : 0 < n.inner n := by
      by_contra hc
      apply hn
      simp only [zeo] at hc
      have hx : n.x = 0 := by nlinarith [mul_self_nonneg n.x, mul_self_nonneg n.y, mul_self_nonneg n.z]
      have hy : n.y = 0 := by nlinarith [mul_self_nonneg n.x, mul_self_nonneg n.y, mul_self_nonneg n.z]
      have hz : n.z = 0 := by nlinarith [mul_self_nonneg n.x, mul_self_nonneg n.y, mul_self_nonneg n.z]
      simp [Vec3.isTol, zIsTol, hx, hy, hz, hτ]
    have ha2 : 0 < a.inner a := by
      have : n.inner n = a.inner a * b.inner b - a.inner b * a.inner b := by rw [hndef]; simp only [zeo]; ring
      by_contra hc
      have h0 : a.inner a = 0 := by
        simp only [zeo] at hc ⊢
        nlinarith [mul_self_nonneg a.x, mul_self_nonneg a.y, mul_self_nonneg a.z]
      rw [h0] at this
      nlinarith [mul_self_nonneg (a.inner b)]
    -- a vector orthogonal to a and b is a multiple of n
    have wn : ∀ r : Vec3 ℝ, r.inner a = 0 → r.inner b = 0 → r.mul (n.inner n) = n.mul (r.inner n) := by
      intro r h2 h3
      have key : r.mul (n.inner n) = (n.mul (r.inner n)).add
          (((b.outer n).mul (r.inner a)).add ((n.outer a).mul (r.inner b))) := by
        rw [hndef]; ext <;> simp only [zeo] <;> ring
      rw [key, h2, h3]; ext <;> simp [zeo]
    have hmn' : ∀ m : Vec3 ℝ, m ≠ .zero → m.mul (n.inner n) = n.mul (m.inner n) → m.inner n ≠ 0 := by
      intro m hm m2 hz
      apply hm
      rw [hz] at m2
      have hx := congrArg Vec3.x m2
      have hy := congrArg Vec3.y m2
      have hz' := congrArg Vec3.z m2
      simp only [zeo, mul_zero, zero_mul, mul_eq_zero] at hx hy hz'
      have hn2' : n.x * n.x + n.y * n.y + n.z * n.z ≠ 0 := by simpa only [zeo] using hn2.ne'
      ext
      · exact hx.resolve_left hn2'
      · exact hy.resolve_left hn2'
      · exact hz'.resolve_left hn2'
    refine ⟨?_, ?_, ?_⟩
    · refine ⟨t, by simp, o, by simp [ho], p, by simp [hp], ?_⟩
      have : crs (·.inner s.1) (·.inner s.2) t o p = j * k * (n.inner n * (a.inner a)) := by
        unfold crs
        simp only [e0, e1]
        rw [hndef, ha, hb]
        simp only [zeo]
        ring
      rw [this]
      positivity
    · intro m hm c hc u v hu hv h0 h1
      have hma : Spec.dot m a = 0 := by
        have h2 := hc t (by simp)
        have h3 := hc o (by simp [ho])
        rw [ha]; simp only [Spec.dot, zeo] at *; linarith
      have hmb : Spec.dot m b = 0 := by
        have h2 := hc t (by simp)
        have h3 := hc p (by simp [hp])
        rw [hb]; simp only [Spec.dot, zeo] at *; linarith
      set w := u.sub v with hw
      have w0 : w.inner a = 0 := by
        have : j * w.inner a = 0 := by
          rw [e0] at h0; rw [hw]; simp only [zeo] at *; linarith
        exact (mul_eq_zero.1 this).resolve_left hj.ne'
      have w1 : w.inner (n.outer a) = 0 := by
        have : k * w.inner (n.outer a) = 0 := by
          rw [e1] at h1; rw [hw]; simp only [zeo] at *; linarith
        exact (mul_eq_zero.1 this).resolve_left hk.ne'
      have wm : Spec.dot m w = 0 := by rw [hw]; simp only [Spec.dot, zeo] at *; linarith
      -- w is orthogonal to a and b
      have wb : w.inner b = 0 := by
        have : a.inner a * w.inner b = w.inner (n.outer a) + a.inner b * w.inner a := by
          rw [hndef]; simp only [zeo]; ring
        rw [w1, w0] at this
        have : a.inner a * w.inner b = 0 := by rw [this]; ring
        exact (mul_eq_zero.1 this).resolve_left ha2.ne'
      have w2 := wn w w0 wb
      have m2 := wn m (by simp only [Spec.dot, zeo] at *; linarith) (by simp only [Spec.dot, zeo] at *; linarith)
      have hmn := hmn' m hm m2
      have hwn : w.inner n = 0 := by
        have : m.inner n * w.inner n = n.inner n * Spec.dot m w := by
          have hx := congrArg (Vec3.inner · w) m2
          simp only [zeo, Spec.dot] at *
          linarith
        rw [wm, mul_zero] at this
        exact (mul_eq_zero.1 this).resolve_left hmn
      rw [hwn] at w2
      have hx := congrArg Vec3.x w2
      have hy := congrArg Vec3.y w2
      have hz' := congrArg Vec3.z w2
      simp only [zeo, mul_zero, zero_mul, mul_eq_zero] at hx hy hz'
      have hn2' : n.x * n.x + n.y * n.y + n.z * n.z ≠ 0 := by simpa only [zeo] using hn2.ne'
      have hx' := hx.resolve_left hn2'
      have hy' := hy.resolve_left hn2'
      have hz'' := hz'.resolve_left hn2'
      rw [hw] at hx' hy' hz''
      simp only [zeo] at hx' hy' hz''
      ext <;> linarith
    · intro m hm c hc u hu v hv
      have hma : Spec.dot m a = 0 := by
        have h2 := hc t (by simp)
        have h3 := hc o (by simp [ho])
        rw [ha]; simp only [Spec.dot, zeo] at *; linarith
      have hmb : Spec.dot m b = 0 := by
        have h2 := hc t (by simp)
        have h3 := hc p (by simp [hp])
        rw [hb]; simp only [Spec.dot, zeo] at *; linarith
      have m2 := wn m (by simp only [Spec.dot, zeo] at *; linarith) (by simp only [Spec.dot, zeo] at *; linarith)
      have hmn := hmn' m hm m2
      have wm : Spec.dot m (u.sub v) = 0 := by
        have h2 := hc u hu
        have h3 := hc v hv
        simp only [Spec.dot, zeo] at *; linarith
      set w := u.sub v with hw
      have hwn : w.inner n = 0 := by
        have : m.inner n * w.inner n = n.inner n * Spec.dot m w := by
          have hx := congrArg (Vec3.inner · w) m2
          simp only [zeo, Spec.dot] at *
          linarith
        rw [wm, mul_zero] at this
        exact (mul_eq_zero.1 this).resolve_left hmn
      have : Spec.dot (s.1.outer s.2) w = j * k * (a.inner a * w.inner n) := by
        rw [e0, e1, hndef]
        simp only [Spec.dot, zeo]
        ring
      rw [this, hwn]; ring

/-! ## The loop -/

/-- The two chains of the loop, from the first point `t` to the last point `h` and back. -/
private structure Core (l : List (Vec3 ℝ)) (x y : Vec3 ℝ → ℝ) (c : List (Vec3 ℝ)) (t h : Vec3 ℝ)
    (ru rd : List (Vec3 ℝ)) : Prop where
  eq : c = (t :: ru) ++ (h :: rd)
  memt : t ∈ l
  memh : h ∈ l
  memu : ∀ v ∈ ru, v ∈ l
  memd : ∀ v ∈ rd, v ∈ l
  up : List.IsChain (fun a b => Lt x y a b ∧ ∀ q ∈ l, crs x y a b q ≤ 0) (t :: (ru ++ [h]))
  dn : List.IsChain (fun a b => Lt x y b a ∧ ∀ q ∈ l, crs x y a b q ≤ 0) (h :: (rd ++ [t]))
  tu : Turns x y (t :: (ru ++ [h]))
  td : Turns x y (h :: (rd ++ [t]))
  fst : ∀ q ∈ l, Le x y t q
  lst : ∀ q ∈ l, Le x y q h
  tot : ∀ p ∈ l, ∀ q ∈ l, Le x y p q ∨ Le x y q p

private theorem turns_neg {x y : Vec3 ℝ → ℝ} : ∀ {l : List (Vec3 ℝ)}, Turns (fun p => -x p) (fun p => -y p) l → Turns x y l
  | [], _ => trivial
  | [_], _ => trivial
  | [_, _], _ => trivial
  | a :: b :: c :: l, h => ⟨by rw [← crs_neg]; exact h.1, turns_neg h.2⟩

private theorem cmp_iff {τ : ℝ} (hτ : 0 ≤ τ) {l : List (Vec3 ℝ)} {s0 s1 : Vec3 ℝ}
    (hr : Spec.Resolved τ s0 s1 {p | p ∈ l})
    (hinj : ∀ p ∈ l, ∀ q ∈ l, p.inner s0 = q.inner s0 → p.inner s1 = q.inner s1 → p = q) {a b : Vec3 ℝ} (ha : a ∈ l)
    (hb : b ∈ l) : Hull2D.cmp τ s0 s1 a b ≤ 0 ↔ Le (·.inner s0) (·.inner s1) a b := by
  obtain ⟨h0, h1, _⟩ := hr a ha b hb
  change |a.inner s0 - b.inner s0| ≤ τ → a.inner s0 = b.inner s0 at h0
  change |a.inner s1 - b.inner s1| ≤ τ → a.inner s1 = b.inner s1 at h1
  unfold Hull2D.cmp Le Lt Hp
  by_cases e0 : zIsTol (a.inner s0 - b.inner s0) τ
  · rw [if_pos e0]
    have g0 := h0 e0
    by_cases e1 : zIsTol (a.inner s1 - b.inner s1) τ
    · rw [if_pos e1]
      simp [hinj a ha b hb g0 (h1 e1)]
    · rw [if_neg e1]
      split
      · rename_i hgt
        constructor
        · intro h; norm_num at h
        · rintro (rfl | h | h)
          · exact absurd hgt (lt_irrefl _)
          · simp only at h; linarith
          · have := h.2; simp only at this; linarith
      · rename_i hgt
        have : a.inner s1 ≠ b.inner s1 := fun h => e1 (by unfold zIsTol; rw [h]; simpa using hτ)
        have : a.inner s1 < b.inner s1 := lt_of_le_of_ne (not_lt.1 hgt) this
        constructor
        · intro _; right; right; exact ⟨by simp only; linarith, by simp only; linarith⟩
        · intro _; norm_num
  · rw [if_neg e0]
    split
    · rename_i hgt
      constructor
      · intro h; norm_num at h
      · rintro (rfl | h | h)
        · exact absurd hgt (lt_irrefl _)
        · simp only at h; linarith
        · have := h.1; simp only at this; linarith
    · rename_i hgt
      have : a.inner s0 ≠ b.inner s0 := fun h => e0 (by unfold zIsTol; rw [h]; simpa using hτ)
      have : a.inner s0 < b.inner s0 := lt_of_le_of_ne (not_lt.1 hgt) this
      constructor
      · intro _; right; left; simp only; linarith
      · intro _; norm_num

private theorem le_total' {l : List (Vec3 ℝ)} {x y : Vec3 ℝ → ℝ}
    (hinj : ∀ p ∈ l, ∀ q ∈ l, x p = x q → y p = y q → p = q) : ∀ p ∈ l, ∀ q ∈ l, Le x y p q ∨ Le x y q p := by
  intro p hp q hq
  unfold Le Lt Hp
  rcases lt_trichotomy (x p) (x q) with h | h | h
  · left; right; left; linarith
  · rcases lt_trichotomy (y p) (y q) with g | g | g
    · left; right; right; constructor <;> linarith
    · left; left; exact hinj p hp q hq h g
    · right; right; right; constructor <;> linarith
  · right; right; left; linarith

private theorem rev_inner (s : Vec3 ℝ) : (fun p : Vec3 ℝ => p.inner s.rev) = fun p => -(p.inner s) := by
  funext p; simp [zeo]; ring

private theorem split_last {c : List (Vec3 ℝ)} {h p0 : Vec3 ℝ} {r : List (Vec3 ℝ)} (e : c ++ [h] = p0 :: r) (hr : r ≠ []) :
    ∃ r', c = p0 :: r' ∧ r = r' ++ [h] := by
  cases c with
  | nil =>
    simp only [List.nil_append, List.cons.injEq] at e
    exact absurd e.2.symm hr
  | cons a c =>
    simp only [List.cons_append, List.cons.injEq] at e
    exact ⟨c, by rw [e.1], e.2.symm⟩

private theorem core {τ : ℝ} (hτ : 0 ≤ τ) {sort} (hs : Spec.IsSort sort) {l : List (Vec3 ℝ)}
    (hc : Spec.Coplanar {p | p ∈ l}) {s : Vec3 ℝ × Vec3 ℝ} (hb : base τ l = some s)
    (hr : Spec.Resolved τ s.1 s.2 {p | p ∈ l}) :
    ∃ c t h ru rd, loop τ sort l = some c ∧ Core l (·.inner s.1) (·.inner s.2) c t h ru rd := by
  have fr := base_fr τ hτ l s hb
  obtain ⟨n, hn, k, hk⟩ := hc
  have hinj : ∀ p ∈ l, ∀ q ∈ l, p.inner s.1 = q.inner s.1 → p.inner s.2 = q.inner s.2 → p = q :=
    fun p hp q hq => fr.inj n hn k hk p q (hk p hp) (hk q hq)
  have htot := le_total' (x := (·.inner s.1)) (y := (·.inner s.2)) hinj
  obtain ⟨hperm, hsort⟩ := hs (Hull2D.cmp τ s.1 s.2) l
  have hpw := hsort
    (fun a ha b hb => by rw [cmp_iff hτ hr hinj ha hb, cmp_iff hτ hr hinj hb ha]; exact htot a ha b hb)
    (fun a ha b hb c hc => by
      rw [cmp_iff hτ hr hinj ha hb, cmp_iff hτ hr hinj hb hc, cmp_iff hτ hr hinj ha hc]; exact Le.trans)
  set L := sort (Hull2D.cmp τ s.1 s.2) l with hL
  have hmem : ∀ q, q ∈ L ↔ q ∈ l := fun q => hperm.mem_iff
  have hpw' : L.Pairwise (Le (·.inner s.1) (·.inner s.2)) := by
    refine List.Pairwise.imp_of_mem (fun {a b} ha hb h => ?_) hpw
    exact (cmp_iff hτ hr hinj ((hmem a).1 ha) ((hmem b).1 hb)).1 h
  have hsep : ∀ p ∈ l, ∀ q ∈ l, (q.sub p).isTol τ ↔ q = p := by
    intro p hp q hq
    constructor
    · rintro ⟨h1, h2, h3⟩
      exact (hr q hq p hp).2.2 h1 h2 h3
    · rintro rfl
      simp [Vec3.isTol, zIsTol, zeo, hτ]
  have hLne : L ≠ [] := by
    obtain ⟨t, ht, _⟩ := fr.ex
    intro e
    have := (hmem t).2 ht
    rw [e] at this
    simp at this
  obtain ⟨t, r, eL⟩ := List.exists_cons_of_ne_nil hLne
  obtain ⟨h, r', eR⟩ := List.exists_cons_of_ne_nil (l := L.reverse) (by simpa using hLne)
  have eh : L.getLast hLne = h := by
    have : L = r'.reverse ++ [h] := by rw [← List.reverse_reverse L, eR]; simp
    simp [this]
  have et : L.reverse.getLast (by simpa using hLne) = t := by
    rw [List.getLast_reverse]; simp [eL]
  have hfst : ∀ q ∈ l, Le (·.inner s.1) (·.inner s.2) t q := by
    intro q hq
    have hq' := (hmem q).2 hq
    rw [eL] at hq' hpw'
    rcases List.mem_cons.1 hq' with rfl | hq'
    · exact Or.inl rfl
    · exact (List.pairwise_cons.1 hpw').1 q hq'
  have hpwr : L.reverse.Pairwise (fun a b => Le (·.inner s.1) (·.inner s.2) b a) := List.pairwise_reverse.2 hpw'
  have hlst : ∀ q ∈ l, Le (·.inner s.1) (·.inner s.2) q h := by
    intro q hq
    have hq' : q ∈ L.reverse := by simpa using (hmem q).2 hq
    rw [eR] at hq' hpwr
    rcases List.mem_cons.1 hq' with rfl | hq'
    · exact Or.inl rfl
    · exact (List.pairwise_cons.1 hpwr).1 q hq'
  have htl : t ∈ l := (hmem t).1 (by rw [eL]; simp)
  have hhl : h ∈ l := (hmem h).1 (by rw [← List.mem_reverse, eR]; simp)
  have hth : h ≠ t := by
    intro e
    obtain ⟨a, ha, b, hb, c, hc, hne⟩ := fr.ex
    have all : ∀ q ∈ l, q = t := by
      intro q hq
      rcases hfst q hq with h1 | h1
      · exact h1.symm
      · have h2 := hlst q hq
        rw [e] at h2
        exact absurd (h1.le h2) (fun h => h.irrefl)
    rw [all a ha, all b hb, all c hc] at hne
    exact hne (by unfold crs; simp)
  -- upper chain
  have hrne : r ≠ [] := by
    rintro rfl
    have : L.getLast hLne = t := by simp [eL]
    exact hth (eh.symm.trans this)
  have hr'ne : r' ≠ [] := by
    rintro rfl
    have : L.reverse.getLast (by simpa using hLne) = h := by simp [eR]
    exact hth (this.symm.trans et)
  have eh' : (t :: r).getLast (by simp) = h := by rw [← eh]; simp only [eL]
  have et' : (h :: r').getLast (by simp) = t := by rw [← et]; simp only [eR]
  have memr : ∀ q ∈ t :: r, q ∈ l := fun q hq => (hmem q).1 (by rw [eL]; exact hq)
  have memr' : ∀ q ∈ h :: r', q ∈ l := fun q hq => (hmem q).1 (by rw [← List.mem_reverse, eR]; exact hq)
  obtain ⟨ru, u1, u2, -, u4, u5, u6⟩ := chain_spec τ s.1 s.2 r.length r t ∅ le_rfl (by rw [← eL]; exact hpw')
    (fun p hp q hq => hsep p (memr p hp) q (memr q hq)) (Or.inr (by rw [eh']; exact hth)) (by simp) (by simp)
  obtain ⟨rd, d1, d2, -, d4, d5, d6⟩ := chain_spec τ s.1.rev s.2.rev r'.length r' h ∅ le_rfl
    (by
      rw [← eR]
      refine hpwr.imp fun {a b} hab => ?_
      rw [rev_inner, rev_inner]
      rcases hab with rfl | hab
      · exact Or.inl rfl
      · exact Or.inr (Lt_neg.2 hab))
    (fun p hp q hq => hsep p (memr' p hp) q (memr' q hq)) (Or.inr (by rw [et']; exact hth.symm)) (by simp) (by simp)
  rw [rev_inner, rev_inner] at d5 d6
  rw [eh'] at u1
  rw [et'] at d1
  obtain ⟨cu, hcu, hru⟩ := split_last u1 (u4 hrne)
  obtain ⟨cd, hcd, hrd⟩ := split_last d1 (d4 hr'ne)
  refine ⟨(t :: cu) ++ (h :: cd), t, h, cu, cd, ?_, ⟨rfl, htl, hhl, ?_, ?_, ?_, ?_, ?_, ?_, hfst, hlst, htot⟩⟩
  · simp only [loop, hb, Option.map_some]
    rw [← hL, eR, ← hcu, ← hcd, eL]
  · intro v hv
    exact memr v (List.mem_cons_of_mem _ (u2 v (by rw [hru]; simp [hv])).1)
  · intro v hv
    exact memr' v (List.mem_cons_of_mem _ (d2 v (by rw [hrd]; simp [hv])).1)
  · rw [← hru]
    exact u5.imp fun a b hab => ⟨hab.1, fun q hq => hab.2 q (Or.inr (by rw [← eL]; exact (hmem q).2 hq))⟩
  · rw [← hrd]
    refine d5.imp fun a b hab => ⟨Lt_neg.1 hab.1, fun q hq => ?_⟩
    have := hab.2 q (Or.inr (by rw [← eR]; simpa using (hmem q).2 hq))
    rwa [crs_neg] at this
  · rw [← hru]; exact u6
  · rw [← hrd]; exact turns_neg d6

theorem hull_mono {S T : Set (Vec3 ℝ)} (h : S ⊆ T) {q : Vec3 ℝ} (hq : Spec.InHull S q) : Spec.InHull T q := by
  obtain ⟨n, L, p, hp, h1⟩ := hq
  exact ⟨n, L, p, fun i => h (hp i), h1⟩

theorem hull_self {S : Set (Vec3 ℝ)} {q : Vec3 ℝ} (hq : q ∈ S) : Spec.InHull S q :=
  ⟨1, fun _ => 1, fun _ => q, fun _ => hq, by simp, by simp, by simp⟩

/-- Convex combinations of two points of a hull. -/
theorem hull_conv {S : Set (Vec3 ℝ)} {p q : Vec3 ℝ} (hp : Spec.InHull S p) (hq : Spec.InHull S q) {a b : ℝ}
    (ha : 0 ≤ a) (hb : 0 ≤ b) (hab : a + b = 1) : Spec.InHull S (Spec.comb a b 0 0 p q p p) := by
  obtain ⟨n, L, u, h1, h2, h3, rfl⟩ := hp
  obtain ⟨m, M, v, g1, g2, g3, rfl⟩ := hq
  refine ⟨n + m, Fin.append (fun i => a * L i) (fun i => b * M i), Fin.append u v, ?_, ?_, ?_, ?_⟩
  · intro i
    refine Fin.addCases (fun j => ?_) (fun j => ?_) i
    · simpa using h1 j
    · simpa using g1 j
  · intro i
    refine Fin.addCases (fun j => ?_) (fun j => ?_) i
    · simpa using mul_nonneg ha (h2 j)
    · simpa using mul_nonneg hb (g2 j)
  · rw [Fin.sum_univ_add]
    simp [← Finset.mul_sum, h3, g3, hab]
  · ext <;> simp [Spec.comb, Fin.sum_univ_add, Finset.mul_sum, mul_assoc]

/-- Hulls of hulls. -/
theorem hull_hull {S T : Set (Vec3 ℝ)} (h : ∀ p ∈ S, Spec.InHull T p) {q : Vec3 ℝ} (hq : Spec.InHull S q) :
    Spec.InHull T q := by
  obtain ⟨n, L, p, hp, hL, hs, rfl⟩ := hq
  -- by induction on the number of points, with any positive total weight
  have key : ∀ (n : ℕ) (L : Fin n → ℝ) (p : Fin n → Vec3 ℝ), (∀ i, p i ∈ S) → (∀ i, 0 ≤ L i) → 0 < ∑ i, L i →
      Spec.InHull T ⟨(∑ i, L i * (p i).x) / ∑ i, L i, (∑ i, L i * (p i).y) / ∑ i, L i, (∑ i, L i * (p i).z) / ∑ i, L i⟩ := by
    intro n
    induction n with
    | zero => intro L p _ _ h0; simp at h0
    | succ n ih =>
      intro L p hp hL h0
      simp only [Fin.sum_univ_succ] at h0 ⊢
      set W := ∑ i : Fin n, L i.succ with hW
      have hW0 : 0 ≤ W := Finset.sum_nonneg fun i _ => hL _
      rcases hW0.lt_or_eq with hpos | hzero
      · have h1 := ih (fun i => L i.succ) (fun i => p i.succ) (fun i => hp _) (fun i => hL _) hpos
        have h2 := hull_conv (h _ (hp 0)) h1 (a := L 0 / (L 0 + W)) (b := W / (L 0 + W))
          (div_nonneg (hL 0) h0.le) (div_nonneg hW0 h0.le) (by field_simp)
        convert h2 using 1
        simp only [← hW]
        ext <;> simp only [Spec.comb] <;> field_simp <;> ring
      · have hz : ∀ i : Fin n, L i.succ = 0 := fun i =>
          (Finset.sum_eq_zero_iff_of_nonneg (fun i _ => hL _)).1 (hW ▸ hzero.symm) i (Finset.mem_univ i)
        rw [← hzero] at h0 ⊢
        have hL0 : L 0 ≠ 0 := by linarith
        convert h _ (hp 0) using 1
        ext <;> simp [hz] <;> field_simp
  have := key n L p hp hL (by rw [hs]; norm_num)
  simpa [hs] using this

/-- Vertices of the loop are extreme. -/
private theorem core_extreme {l : List (Vec3 ℝ)} {s0 s1 : Vec3 ℝ}
    (hinj : ∀ p ∈ l, ∀ q ∈ l, p.inner s0 = q.inner s0 → p.inner s1 = q.inner s1 → p = q)
    {c t h ru rd} (hc : Core l (·.inner s0) (·.inner s1) c t h ru rd) : ∀ v ∈ c, Spec.Extreme {p | p ∈ l} v := by
  have inner : ∀ a v b : Vec3 ℝ, v ∈ l → (∀ q ∈ l, crs (·.inner s0) (·.inner s1) a v q ≤ 0) →
      (∀ q ∈ l, crs (·.inner s0) (·.inner s1) v b q ≤ 0) → crs (·.inner s0) (·.inner s1) a v b < 0 →
      Spec.Extreme {p | p ∈ l} v := fun a v b hv h1 h2 h3 =>
    ⟨hv, not_hull_of_turn s0 s1 (fun q hq => hinj q hq.1 v hv) (fun q hq => hq.2) (fun q hq => h1 q hq.1)
      (fun q hq => h2 q hq.1) h3⟩
  intro v hv
  rw [hc.eq] at hv
  rcases List.mem_append.1 hv with hv | hv
  · rcases List.mem_cons.1 hv with rfl | hv
    · refine ⟨hc.memt, not_hull_of_lt s0 s1 fun p hp => ?_⟩
      rcases hc.fst p hp.1 with e | e
      · exact absurd e.symm hp.2
      · exact e
    · obtain ⟨a, b, -, -, h1, h2, h3⟩ := neighbours h ru t hc.up hc.tu v hv
      exact inner a v b (hc.memu v hv) h1.2 h2.2 h3
  · rcases List.mem_cons.1 hv with rfl | hv
    · refine ⟨hc.memh, not_hull_of_lt s0.rev s1.rev fun p hp => ?_⟩
      rw [rev_inner, rev_inner]
      rcases hc.lst p hp.1 with e | e
      · exact absurd e hp.2
      · exact Lt_neg.2 e
    · obtain ⟨a, b, -, -, h1, h2, h3⟩ := neighbours t rd h hc.dn hc.td v hv
      exact inner a v b (hc.memd v hv) h1.2 h2.2 h3

/-- Every point of the set is in the hull of the loop. -/
private theorem core_cover {l : List (Vec3 ℝ)} {s0 s1 n : Vec3 ℝ} {k : ℝ} (hk : ∀ p ∈ l, Spec.dot n p = k)
    (hinj : ∀ p q, Spec.dot n p = k → Spec.dot n q = k → p.inner s0 = q.inner s0 → p.inner s1 = q.inner s1 → p = q)
    {c t h ru rd} (hc : Core l (·.inner s0) (·.inner s1) c t h ru rd) : ∀ q ∈ l, Spec.InHull {p | p ∈ c} q := by
  intro q hq
  have mu : ∀ b ∈ t :: (ru ++ [h]), b ∈ l := by
    intro b hb
    simp only [List.mem_cons, List.mem_append, List.not_mem_nil, or_false] at hb
    rcases hb with rfl | hb | rfl
    · exact hc.memt
    · exact hc.memu b hb
    · exact hc.memh
  have md : ∀ b ∈ h :: (rd ++ [t]), b ∈ l := by
    intro b hb
    simp only [List.mem_cons, List.mem_append, List.not_mem_nil, or_false] at hb
    rcases hb with rfl | hb | rfl
    · exact hc.memh
    · exact hc.memd b hb
    · exact hc.memt
  have muc : ∀ b ∈ t :: (ru ++ [h]), b ∈ c := by
    intro b hb
    rw [hc.eq]
    simp only [List.mem_cons, List.mem_append, List.not_mem_nil, or_false] at hb ⊢
    tauto
  have mdc : ∀ b ∈ h :: (rd ++ [t]), b ∈ c := by
    intro b hb
    rw [hc.eq]
    simp only [List.mem_cons, List.mem_append, List.not_mem_nil, or_false] at hb ⊢
    tauto
  obtain ⟨a, b, ha, hb, hab, haq, hqb⟩ := exists_edge (x := (·.inner s0)) (y := (·.inner s1)) (fun a b h => h.1) q
    (ru ++ [h]) t (by simp) hc.up (fun b hb => hc.tot q hq b (mu b (List.mem_cons_of_mem _ hb))) (hc.fst q hq)
    (by simpa using hc.lst q hq)
  obtain ⟨d, e, hd, he, hde, hdq, hqe⟩ := exists_edge (x := fun p => -(p.inner s0)) (y := fun p => -(p.inner s1))
    (R := fun a b => Lt (·.inner s0) (·.inner s1) b a ∧ ∀ q ∈ l, crs (·.inner s0) (·.inner s1) a b q ≤ 0)
    (fun a b h => Lt_neg.2 h.1) q (rd ++ [t]) h (by simp) hc.dn
    (fun b hb => by
      rcases hc.tot q hq b (md b (List.mem_cons_of_mem _ hb)) with h | h
      · right; exact h.imp Eq.symm Lt_neg.2
      · left; exact h.imp Eq.symm Lt_neg.2)
    ((hc.lst q hq).imp Eq.symm Lt_neg.2) (by
      have e : (h :: (rd ++ [t])).getLast (by simp) = t := by simp
      rw [e]
      exact (hc.fst q hq).imp Eq.symm Lt_neg.2)
  obtain ⟨α, β, hα, hβ, hαβ, hx, hy⟩ := on_edge hab.1 haq hqb
  obtain ⟨γ, δ, hγ, hδ, hγδ, gx, gy⟩ := on_edge (x := fun p => -(p.inner s0)) (y := fun p => -(p.inner s1))
    (Lt_neg.2 hde.1) hdq hqe
  set u := Spec.comb α β 0 0 a b a a with hu
  set w := Spec.comb γ δ 0 0 d e d d with hw
  have hullu : Spec.InHull {p | p ∈ c} u := hull_conv (hull_self (muc a ha)) (hull_self (muc b hb)) hα hβ hαβ
  have hullw : Spec.InHull {p | p ∈ c} w := hull_conv (hull_self (mdc d hd)) (hull_self (mdc e he)) hγ hδ hγδ
  have iu : ∀ s : Vec3 ℝ, u.inner s = α * a.inner s + β * b.inner s := fun s => by
    rw [hu]; simp only [Spec.comb, zeo]; ring
  have iw : ∀ s : Vec3 ℝ, w.inner s = γ * d.inner s + δ * e.inner s := fun s => by
    rw [hw]; simp only [Spec.comb, zeo]; ring
  have ux : u.inner s0 = q.inner s0 := by rw [iu, hx]
  have wx : w.inner s0 = q.inner s0 := by rw [iw]; linarith
  have uy : q.inner s1 ≤ u.inner s1 := by
    rw [iu]
    rcases hy with ⟨h1, h2⟩ | ⟨_, h2⟩
    · have h3 := hab.2 q hq
      by_contra hcon
      have := mul_neg_of_neg_of_pos (a := α * a.inner s1 + β * b.inner s1 - q.inner s1) (by linarith) h1
      linarith
    · exact h2.le
  have wy : w.inner s1 ≤ q.inner s1 := by
    rw [iw]
    rcases gy with ⟨h1, h2⟩ | ⟨_, h2⟩
    · have h3 := hde.2 q hq
      rw [crs_neg (·.inner s0) (·.inner s1) d e q] at h2
      by_contra hcon
      have := mul_neg_of_neg_of_pos (a := γ * -d.inner s1 + δ * -e.inner s1 - -q.inner s1) (by linarith) h1
      linarith
    · linarith
  have du : Spec.dot n u = k := by
    have h1 := hk a (mu a ha)
    have h2 := hk b (mu b hb)
    have : Spec.dot n u = α * Spec.dot n a + β * Spec.dot n b := by rw [hu]; simp only [Spec.comb, Spec.dot]; ring
    rw [this, h1, h2, ← add_mul, hαβ, one_mul]
  have dw : Spec.dot n w = k := by
    have h1 := hk d (md d hd)
    have h2 := hk e (md e he)
    have : Spec.dot n w = γ * Spec.dot n d + δ * Spec.dot n e := by rw [hw]; simp only [Spec.comb, Spec.dot]; ring
    rw [this, h1, h2, ← add_mul, hγδ, one_mul]
  rcases (wy.trans uy).lt_or_eq with hlt | heq
  · have hpos : 0 < u.inner s1 - w.inner s1 := by linarith
    set f := (q.inner s1 - w.inner s1) / (u.inner s1 - w.inner s1) with hf
    set g := (u.inner s1 - q.inner s1) / (u.inner s1 - w.inner s1) with hg
    have hfg : f + g = 1 := by rw [hf, hg]; field_simp; ring
    have hz := hull_conv hullu hullw (a := f) (b := g) (div_nonneg (by linarith) hpos.le) (div_nonneg (by linarith) hpos.le) hfg
    have ez : q = Spec.comb f g 0 0 u w u u := by
      have i2 : ∀ s : Vec3 ℝ, (Spec.comb f g 0 0 u w u u).inner s = f * u.inner s + g * w.inner s := fun s => by
        simp only [Spec.comb, zeo]; ring
      refine hinj _ _ (hk q hq) ?_ ?_ ?_
      · have : Spec.dot n (Spec.comb f g 0 0 u w u u) = f * Spec.dot n u + g * Spec.dot n w := by
          simp only [Spec.comb, Spec.dot]; ring
        rw [this, du, dw, ← add_mul, hfg, one_mul]
      · rw [i2, ux, wx, ← add_mul, hfg, one_mul]
      · rw [i2, hf, hg]; field_simp; ring
    rw [ez]; exact hz
  · have : q = u := hinj _ _ (hk q hq) du ux.symm (by linarith)
    rw [this]; exact hullu

/-- The loop visits no vertex twice. -/
private theorem core_nodup {l : List (Vec3 ℝ)} {s0 s1 n : Vec3 ℝ} {k : ℝ} (hk : ∀ p ∈ l, Spec.dot n p = k)
    (hinj : ∀ p q, Spec.dot n p = k → Spec.dot n q = k → p.inner s0 = q.inner s0 → p.inner s1 = q.inner s1 → p = q)
    {c t h ru rd} (hc : Core l (·.inner s0) (·.inner s1) c t h ru rd) : c.Nodup := by
  have pu := chain_pairwise (x := (·.inner s0)) (y := (·.inner s1)) (fun a b h => h.1) hc.up
  have pd := chain_pairwise (x := fun p => -(p.inner s0)) (y := fun p => -(p.inner s1))
    (R := fun a b => Lt (·.inner s0) (·.inner s1) b a ∧ ∀ q ∈ l, crs (·.inner s0) (·.inner s1) a b q ≤ 0)
    (fun a b h => Lt_neg.2 h.1) hc.dn
  have hex := core_extreme (fun p hp q hq => hinj p q (hk p hp) (hk q hq)) hc
  have nu : (t :: (ru ++ [h])).Nodup := pu.imp fun {a b} hab e => by subst e; exact hab.irrefl
  have nd : (h :: (rd ++ [t])).Nodup := pd.imp fun {a b} hab e => by subst e; exact hab.irrefl
  rw [hc.eq, List.nodup_append]
  refine ⟨?_, ?_, ?_⟩
  · rw [← List.cons_append] at nu; exact (List.nodup_append.1 nu).1
  · rw [← List.cons_append] at nd; exact (List.nodup_append.1 nd).1
  · intro a ha b hb hab
    subst hab
    rcases List.mem_cons.1 ha with rfl | hau
    · rw [← List.cons_append] at nd
      exact (List.nodup_append.1 nd).2.2 a hb a (by simp) rfl
    · rcases List.mem_cons.1 hb with rfl | had
      · rw [← List.cons_append] at nu
        exact (List.nodup_append.1 nu).2.2 a (by simp [hau]) a (by simp) rfl
      · -- an inner vertex of both chains lies on the line of the ends
        have hta : Lt (·.inner s0) (·.inner s1) t a := (List.pairwise_cons.1 pu).1 a (by simp [hau])
        have hah : Lt (·.inner s0) (·.inner s1) a h :=
          Lt_neg.1 ((List.pairwise_cons.1 pd).1 a (by simp [had]))
        obtain ⟨_, b, -, -, -, h2, -⟩ := neighbours h ru t hc.up hc.tu a hau
        obtain ⟨_, d, -, -, -, g2, -⟩ := neighbours t rd h hc.dn hc.td a had
        have k1 := above h2.1 hta hah (h2.2 t hc.memt) (h2.2 h hc.memh)
        have k2 := above (x := fun p => -(p.inner s0)) (y := fun p => -(p.inner s1)) (Lt_neg.2 g2.1) (Lt_neg.2 hah)
          (Lt_neg.2 hta) (by rw [crs_neg]; exact g2.2 h hc.memh) (by rw [crs_neg]; exact g2.2 t hc.memt)
        rw [crs_neg] at k2
        have k3 : crs (·.inner s0) (·.inner s1) t h a = 0 := by
          have : crs (·.inner s0) (·.inner s1) h t a = - crs (·.inner s0) (·.inner s1) t h a := by unfold crs; ring
          rw [this] at k2
          linarith
        obtain ⟨α, β, hα, hβ, hαβ, ex, ey⟩ := on_edge (hta.trans hah) (Or.inr hta) (Or.inr hah)
        have ey' : a.inner s1 = α * t.inner s1 + β * h.inner s1 := by
          rcases ey with ⟨e1, e2⟩ | ⟨_, e2⟩
          · rw [k3, neg_zero] at e2
            have := (mul_eq_zero.1 e2).resolve_right e1.ne'
            linarith
          · exact e2
        have hal : a ∈ l := hc.memu a hau
        have ea : a = Spec.comb α β 0 0 t h t t := by
          have i2 : ∀ s : Vec3 ℝ, (Spec.comb α β 0 0 t h t t).inner s = α * t.inner s + β * h.inner s := fun s => by
            simp only [Spec.comb, zeo]; ring
          refine hinj _ _ (hk a hal) ?_ (by rw [i2, ex]) (by rw [i2, ey'])
          have : Spec.dot n (Spec.comb α β 0 0 t h t t) = α * Spec.dot n t + β * Spec.dot n h := by
            simp only [Spec.comb, Spec.dot]; ring
          rw [this, hk t hc.memt, hk h hc.memh, ← add_mul, hαβ, one_mul]
        refine (hex a (by rw [hc.eq]; simp [hau])).2 ?_
        have ht' : t ∈ {q | q ∈ {p | p ∈ l} ∧ q ≠ a} := ⟨hc.memt, fun e => (e ▸ hta).irrefl⟩
        have hh' : h ∈ {q | q ∈ {p | p ∈ l} ∧ q ≠ a} := ⟨hc.memh, fun e => (e ▸ hah).irrefl⟩
        have := hull_conv (hull_self ht') (hull_self hh') hα hβ hαβ
        rw [← ea] at this
        exact this

/-- The plane, bases and injectivity of the setting. -/
private theorem setting {τ : ℝ} (hτ : 0 ≤ τ) {l : List (Vec3 ℝ)} (hc : Spec.Coplanar {p | p ∈ l}) {s : Vec3 ℝ × Vec3 ℝ}
    (hb : base τ l = some s) : ∃ n k, (∀ p ∈ l, Spec.dot n p = k) ∧
      ∀ p q, Spec.dot n p = k → Spec.dot n q = k → p.inner s.1 = q.inner s.1 → p.inner s.2 = q.inner s.2 → p = q := by
  obtain ⟨n, hn, k, hk⟩ := hc
  exact ⟨n, k, hk, (base_fr τ hτ l s hb).inj n hn k hk⟩

/-- **C63 (vertices).** The loop made for points of a plane contains exactly the extreme points of the set, each
of them once, and spans the same hull. -/
theorem C63_vertices {τ : ℝ} (hτ : 0 ≤ τ) {sort} (hs : Spec.IsSort sort) {l : List (Vec3 ℝ)}
    (hc : Spec.Coplanar {p | p ∈ l}) {s : Vec3 ℝ × Vec3 ℝ} (hb : base τ l = some s)
    (hr : Spec.Resolved τ s.1 s.2 {p | p ∈ l}) :
    ∃ c, loop τ sort l = some c ∧ c.Nodup ∧ (∀ v, v ∈ c ↔ Spec.Extreme {p | p ∈ l} v) ∧
      ∀ q, Spec.InHull {p | p ∈ c} q ↔ Spec.InHull {p | p ∈ l} q := by
  obtain ⟨c, t, h, ru, rd, e, core⟩ := core hτ hs hc hb hr
  obtain ⟨n, k, hk, hinj⟩ := setting hτ hc hb
  have hcov := core_cover hk hinj core
  have hex := core_extreme (fun p hp q hq => hinj p q (hk p hp) (hk q hq)) core
  refine ⟨c, e, core_nodup hk hinj core, fun v => ⟨hex v, fun hv => ?_⟩, fun q => ⟨hull_mono fun v hv => (hex v hv).1, hull_hull hcov⟩⟩
  by_contra hvc
  exact hv.2 (hull_mono (T := {q | q ∈ {p | p ∈ l} ∧ q ≠ v}) (fun p hp => ⟨(hex p hp).1, fun e => hvc (e ▸ hp)⟩) (hcov v hv.1))

/-- **C63 (order).** The loop runs clockwise about a normal `w` of the plane: every point of the set is on or to
the right of every edge of the closed loop, and the edge has two different ends. -/
theorem C63_order {τ : ℝ} (hτ : 0 ≤ τ) {sort} (hs : Spec.IsSort sort) {l : List (Vec3 ℝ)}
    (hc : Spec.Coplanar {p | p ∈ l}) {s : Vec3 ℝ × Vec3 ℝ} (hb : base τ l = some s)
    (hr : Spec.Resolved τ s.1 s.2 {p | p ∈ l}) :
    ∃ c, loop τ sort l = some c ∧ 3 ≤ c.length ∧ ∃ w : Vec3 ℝ, w ≠ .zero ∧ (∀ p ∈ l, ∀ q ∈ l, Spec.dot w (p.sub q) = 0) ∧
      List.IsChain (fun a b => a ≠ b ∧ ∀ q ∈ l, Spec.det3 w (b.sub a) (q.sub a) ≤ 0) (c ++ c.take 1) := by
  obtain ⟨c, t, h, ru, rd, e, core⟩ := core hτ hs hc hb hr
  obtain ⟨n, hn, k, hk⟩ := hc
  have fr := base_fr τ hτ l s hb
  have hdet : ∀ a b q : Vec3 ℝ, Spec.det3 (s.1.outer s.2) (b.sub a) (q.sub a) =
      crs (·.inner s.1) (·.inner s.2) a b q := by
    intro a b q; simp only [Spec.det3, crs, zeo]; ring
  have h3 : 3 ≤ c.length := by
    rw [core.eq]
    cases ru with
    | cons a r => simp; omega
    | nil =>
      cases rd with
      | cons a r => simp
      | nil =>
        exfalso
        have hu := (List.isChain_cons_cons.1 core.up).1
        have hd := (List.isChain_cons_cons.1 core.dn).1
        have z : ∀ q ∈ l, crs (·.inner s.1) (·.inner s.2) t h q = 0 := fun q hq => by
          have h1 := hu.2 q hq
          have h2 := hd.2 q hq
          have : crs (·.inner s.1) (·.inner s.2) h t q = - crs (·.inner s.1) (·.inner s.2) t h q := by unfold crs; ring
          linarith
        obtain ⟨a, ha, b, hb', d, hd', hne⟩ := fr.ex
        have z1 := z a ha
        have z2 := z b hb'
        have z3 := z d hd'
        unfold crs at z1 z2 z3 hne
        have hth := hu.1
        apply hne
        rcases hth with g | ⟨_, g⟩
        · have : (h.inner s.1 - t.inner s.1) * ((b.inner s.1 - a.inner s.1) * (d.inner s.2 - a.inner s.2) - (b.inner s.2 - a.inner s.2) * (d.inner s.1 - a.inner s.1)) = 0 := by
            linear_combination (b.inner s.1 - a.inner s.1) * (z3 - z1) - (d.inner s.1 - a.inner s.1) * (z2 - z1)
          exact (mul_eq_zero.1 this).resolve_left g.ne'
        · have : (h.inner s.2 - t.inner s.2) * ((b.inner s.1 - a.inner s.1) * (d.inner s.2 - a.inner s.2) - (b.inner s.2 - a.inner s.2) * (d.inner s.1 - a.inner s.1)) = 0 := by
            linear_combination (b.inner s.2 - a.inner s.2) * (z3 - z1) - (d.inner s.2 - a.inner s.2) * (z2 - z1)
          exact (mul_eq_zero.1 this).resolve_left g.ne'
  refine ⟨c, e, h3, s.1.outer s.2, ?_, ?_, ?_⟩
  · intro hz
    obtain ⟨a, ha, b, hb', d, hd', hne⟩ := fr.ex
    rw [← hdet, hz] at hne
    simp [Spec.det3, zeo] at hne
  · exact fr.nrm n hn k hk
  · have e1 : c ++ c.take 1 = (t :: ru) ++ h :: (rd ++ [t]) := by rw [core.eq]; simp
    rw [e1, List.isChain_split]
    constructor
    · refine core.up.imp fun a b hab => ⟨fun e => ?_, fun q hq => by rw [hdet]; exact hab.2 q hq⟩
      rw [e] at hab; exact hab.1.irrefl
    · refine core.dn.imp fun a b hab => ⟨fun e => ?_, fun q hq => by rw [hdet]; exact hab.2 q hq⟩
      rw [e] at hab; exact hab.1.irrefl

/-! ## Zero tolerance: all inputs -/

private theorem par {a b : Vec3 ℝ} (ha : ¬ a.isTol 0) (h : (a.outer b).isTol 0) : ∃ k : ℝ, b = a.mul k := by
  have hz : ∀ r : ℝ, zIsTol r 0 ↔ r = 0 := fun r => by unfold zIsTol; exact abs_nonpos_iff
  simp only [Vec3.isTol, hz] at ha h
  obtain ⟨h1, h2, h3⟩ := h
  simp only [zeo] at h1 h2 h3
  by_cases hx : a.x = 0
  · by_cases hy : a.y = 0
    · have hz' : a.z ≠ 0 := fun h => ha ⟨hx, hy, h⟩
      refine ⟨b.z / a.z, ?_⟩
      ext <;> simp only [zeo] <;> field_simp <;> linarith
    · refine ⟨b.y / a.y, ?_⟩
      ext <;> simp only [zeo] <;> field_simp <;> linarith
  · refine ⟨b.x / a.x, ?_⟩
    ext <;> simp only [zeo] <;> field_simp <;> linarith

private theorem base2_none (t a : Vec3 ℝ) (ha : ¬ a.isTol 0) : ∀ l, base2 0 t a l = none → ∀ p ∈ l, ∃ k : ℝ, p.sub t = a.mul k
  | [], _, p, hp => by simp at hp
  | q :: l, h, p, hp => by
    simp only [base2] at h
    split at h
    · simp at h
    · rename_i hc
      rcases List.mem_cons.1 hp with rfl | hp
      · by_cases h1 : (p.sub t).isTol 0
        · have hz : ∀ r : ℝ, zIsTol r 0 ↔ r = 0 := fun r => by unfold zIsTol; exact abs_nonpos_iff
          simp only [Vec3.isTol, hz] at h1
          exact ⟨0, by ext <;> simp [h1.1, h1.2.1, h1.2.2, Vec3.mul]⟩
        · exact par ha (by by_contra h2; exact hc ⟨h1, h2⟩)
      · exact base2_none t a ha l h p hp

private theorem base1_none (t : Vec3 ℝ) : ∀ l, base1 0 t l = none → ∃ a : Vec3 ℝ, ∀ p ∈ l, ∃ k : ℝ, p.sub t = a.mul k
  | [], _ => ⟨.zero, by simp⟩
  | q :: l, h => by
    simp only [base1] at h
    split at h
    · rename_i hc
      refine ⟨q.sub t, fun p hp => ?_⟩
      rcases List.mem_cons.1 hp with rfl | hp
      · exact ⟨1, by ext <;> simp [Vec3.mul]⟩
      · exact base2_none t _ hc l h p hp
    · rename_i hc
      rw [not_not] at hc
      obtain ⟨a, ha⟩ := base1_none t l h
      refine ⟨a, fun p hp => ?_⟩
      rcases List.mem_cons.1 hp with rfl | hp
      · have hz : ∀ r : ℝ, zIsTol r 0 ↔ r = 0 := fun r => by unfold zIsTol; exact abs_nonpos_iff
        simp only [Vec3.isTol, hz] at hc
        exact ⟨0, by ext <;> simp [hc.1, hc.2.1, hc.2.2, Vec3.mul]⟩
      · exact ha p hp

/-- **C63 (degenerate sets).** With zero tolerance the function fails exactly on the sets without area: all points
on a line. -/
theorem C63_degenerate (sort) (d : Data (Vec3 ℝ)) :
    hull 0 sort d = none ↔ Spec.Collinear {p | p ∈ d.toAddrList} := by
  unfold hull loop
  rw [Option.map_eq_none_iff]
  generalize d.toAddrList = l
  constructor
  · intro h
    cases l with
    | nil => exact ⟨.zero, .zero, by simp⟩
    | cons t l =>
      obtain ⟨a, ha⟩ := base1_none t l h
      refine ⟨t, a, fun p hp => ?_⟩
      rcases List.mem_cons.1 hp with rfl | hp
      · exact ⟨0, by ext <;> simp⟩
      · obtain ⟨k, hk⟩ := ha p hp
        refine ⟨k, ?_⟩
        have hx := congrArg Vec3.x hk
        have hy := congrArg Vec3.y hk
        have hz := congrArg Vec3.z hk
        simp only [zeo] at hx hy hz
        ext <;> simp only <;> linarith
  · rintro ⟨o, v, h⟩
    cases hb : base 0 l with
    | none => rfl
    | some s =>
      exfalso
      obtain ⟨a, ha, b, hb', c, hc, hne⟩ := (base_fr 0 le_rfl l s hb).ex
      obtain ⟨ka, rfl⟩ := h a ha
      obtain ⟨kb, rfl⟩ := h b hb'
      obtain ⟨kc, rfl⟩ := h c hc
      exact hne (by simp only [crs, zeo]; ring)

private theorem resolved_zero (s0 s1 : Vec3 ℝ) (S : Set (Vec3 ℝ)) : Spec.Resolved 0 s0 s1 S := by
  intro p _ q _
  simp only [abs_nonpos_iff, sub_eq_zero]
  exact ⟨id, id, fun hx hy hz => Vec3.ext hx hy hz⟩

/-- **C63 (exact arithmetic).** With zero tolerance, for every set of points of a plane that are not all on a
line: the result holds exactly the extreme points, once each, in clockwise order about a normal, and spans the
same hull. -/
theorem C63_exact {sort} (hs : Spec.IsSort sort) (d : Data (Vec3 ℝ)) (hc : Spec.Coplanar {p | p ∈ d.toAddrList})
    (hl : ¬ Spec.Collinear {p | p ∈ d.toAddrList}) :
    ∃ c, hull 0 sort d = some c ∧ c.Nodup ∧ 3 ≤ c.length ∧
      (∀ v, v ∈ c ↔ Spec.Extreme {p | p ∈ d.toAddrList} v) ∧
      (∀ q, Spec.InHull {p | p ∈ c} q ↔ Spec.InHull {p | p ∈ d.toAddrList} q) ∧
      ∃ w : Vec3 ℝ, w ≠ .zero ∧ (∀ p ∈ d.toAddrList, ∀ q ∈ d.toAddrList, Spec.dot w (p.sub q) = 0) ∧
        List.IsChain (fun a b => a ≠ b ∧ ∀ q ∈ d.toAddrList, Spec.det3 w (b.sub a) (q.sub a) ≤ 0) (c ++ c.take 1) := by
  rw [← C63_degenerate sort d] at hl
  unfold hull at hl ⊢
  cases hb : base 0 d.toAddrList with
  | none => exact absurd (by simp [loop, hb]) hl
  | some s =>
    obtain ⟨c, e, h1, h2, h3⟩ := C63_vertices le_rfl hs hc hb (resolved_zero _ _ _)
    obtain ⟨c', e', h4, h5⟩ := C63_order le_rfl hs hc hb (resolved_zero _ _ _)
    rw [e] at e'
    obtain rfl := Option.some.inj e'
    exact ⟨c, e, h1, h4, h2, h3, h5⟩

/-! ## The hypotheses are met -/

/-- A sorting routine. -/
def exSort (cmp : Vec3 ℝ → Vec3 ℝ → ℤ) (l : List (Vec3 ℝ)) : List (Vec3 ℝ) :=
  (l.attach.mergeSort fun a b => decide (cmp a.1 b.1 ≤ 0)).map Subtype.val

theorem exSort_isSort : Spec.IsSort exSort := by
  intro cmp l
  refine ⟨?_, fun htot htr => ?_⟩
  · have := (List.mergeSort_perm l.attach fun a b => decide (cmp a.1 b.1 ≤ 0)).map Subtype.val
    rwa [List.attach_map_subtype_val] at this
  · unfold exSort
    rw [List.pairwise_map]
    have := List.pairwise_mergeSort (le := fun (a b : {x // x ∈ l}) => decide (cmp a.1 b.1 ≤ 0))
      (fun a b c h1 h2 => by
        simp only [decide_eq_true_eq] at *
        exact htr a.1 a.2 b.1 b.2 c.1 c.2 h1 h2)
      (fun a b => by
        simp only [Bool.or_eq_true, decide_eq_true_eq]
        exact htot a.1 a.2 b.1 b.2) l.attach
    exact this.imp fun {a b} h => by simpa using h

/-- The corners of a square and its centre, with the tolerance 1/10, meet the hypotheses of `C63_vertices` and
`C63_order`. -/
example : let l : List (Vec3 ℝ) := [⟨0, 0, 0⟩, ⟨2, 0, 0⟩, ⟨1, 1, 0⟩, ⟨2, 2, 0⟩, ⟨0, 2, 0⟩]
    Spec.Coplanar {p | p ∈ l} ∧ base (1/10) l = some (⟨1, 0, 0⟩, ⟨0, 1, 0⟩) ∧
      Spec.Resolved (1/10) ⟨1, 0, 0⟩ ⟨0, 1, 0⟩ {p | p ∈ l} := by
  refine ⟨⟨⟨0, 0, 1⟩, by simp [Vec3.zero, Vec3.ext_iff], 0, ?_⟩, ?_, ?_⟩
  · intro p hp
    simp only [Set.mem_setOf_eq, List.mem_cons, List.not_mem_nil, or_false] at hp
    rcases hp with rfl | rfl | rfl | rfl | rfl <;> simp [Spec.dot]
  · have e2 : Real.sqrt 4 = 2 := by rw [show (4:ℝ) = 2 ^ 2 by norm_num]; exact Real.sqrt_sq (by norm_num)
    have e4 : Real.sqrt 16 = 4 := by rw [show (16:ℝ) = 4 ^ 2 by norm_num]; exact Real.sqrt_sq (by norm_num)
    simp only [base, base1, base2, Vec3.normalize, Vec3.normalizeNC, Vec3.isTol, zIsTol, zeo, Vec3.norm]
    norm_num [e2, e4]
  · intro p hp q hq
    simp only [Set.mem_setOf_eq, List.mem_cons, List.not_mem_nil, or_false] at hp hq
    rcases hp with rfl | rfl | rfl | rfl | rfl <;> rcases hq with rfl | rfl | rfl | rfl | rfl <;>
      norm_num [Spec.dot]

/-- The same points are not on a line. -/
example : ¬ Spec.Collinear {p : Vec3 ℝ | p ∈ ([⟨0, 0, 0⟩, ⟨2, 0, 0⟩, ⟨1, 1, 0⟩, ⟨2, 2, 0⟩, ⟨0, 2, 0⟩] : List (Vec3 ℝ))} := by
  rintro ⟨o, d, h⟩
  obtain ⟨k0, h0⟩ := h ⟨0, 0, 0⟩ (by simp)
  obtain ⟨k1, h1⟩ := h ⟨2, 0, 0⟩ (by simp)
  obtain ⟨k2, h2⟩ := h ⟨0, 2, 0⟩ (by simp)
  simp only [Vec3.mk.injEq] at h0 h1 h2
  have a1 : (k1 - k0) * d.x = 2 := by linarith
  have a2 : (k1 - k0) * d.y = 0 := by linarith
  have a3 : (k2 - k0) * d.y = 2 := by linarith
  rcases mul_eq_zero.1 a2 with h | h
  · rw [h] at a1; norm_num at a1
  · rw [h] at a3; norm_num at a3

end
end Zeo

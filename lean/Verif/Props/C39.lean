import Verif.Lemmas.BBall
import Verif.Props.C22
import Verif.Props.C35
import Verif.Lemmas.BallEval

/-!
# C39: the bounding ball

The first group of theorems is about the method macro, for any kind of ball: the loop driven by the
action stack always ends, never pops an empty stack, restores its stacks and delivers the ball of
Welzl's recursion; the surrounding loop only ends without a warning when every point passed the
inside test.  The second group instantiates them for the 3D and 2D functions.
-/

namespace Zeo
open BBall

section Generic
variable {P R : Type*} (dim : ℕ) (direct : List P → Option R) (inside : R → P → Bool)

/-- The inner loop, started on any points with nothing saved: it ends after finitely many rounds. If
the direct computation never fails in Welzl's recursion, the loop is left with the ball of the
recursion and with every stack as it was; the other way it can end is the failure of the direct
computation itself. In particular no stack is ever popped when empty. -/
theorem C39_loop (ps : List P) (junk : R) :
    let s : R → St P R := fun r => ⟨ps, [], [], dim, List.replicate ps.length .save, [], r⟩
    (∃ n r, Spec.welzl dim direct inside ps [] = some r ∧
      loop dim direct inside n (s junk) = some (.exit (s r))) ∨
    (∃ n, Spec.welzl dim direct inside ps [] = none ∧
      loop dim direct inside n (s junk) = some .crash) := by
  intro s
  obtain ⟨h1, h2⟩ := loop_init (dim := dim) (direct := direct) (inside := inside) ps junk
  cases hw : Spec.welzl dim direct inside ps [] with
  | none => obtain ⟨n, hn⟩ := h2 hw; exact Or.inr ⟨n, rfl, hn⟩
  | some r => obtain ⟨n, hn⟩ := h1 r hw; exact Or.inl ⟨n, r, rfl, hn⟩

/-- The states between two retries. -/
private def rest (ps : List P) (r : R) : St P R :=
  ⟨ps, [], [], dim, List.replicate ps.length .save, [], r⟩

private theorem reorder_rest (ps : List P) (r : R) :
    (reorder inside (rest dim ps r) = none ∧ ∀ p ∈ ps, inside r p = true) ∨
    ∃ ps' : List P, ps'.Perm ps ∧ reorder inside (rest dim ps r) = some (rest dim ps' r) := by
  cases hf : findOutlier inside r ps with
  | none => exact Or.inl ⟨by simp [reorder, rest, hf], findOutlier_none hf⟩
  | some x =>
    obtain ⟨a, q, b⟩ := x
    obtain ⟨rfl, -⟩ := findOutlier_some hf
    refine Or.inr ⟨q :: (a ++ b), List.perm_middle.symm, ?_⟩
    simp [reorder, rest, hf]
    omega

private theorem retry_terminates (n : ℕ) : ∀ (ps : List P) (junk : R),
    ∃ N, ∀ fuel, N ≤ fuel → retry dim direct inside fuel n (rest dim ps junk) ≠ .stuck := by
  induction n with
  | zero => intro ps junk; exact ⟨0, fun fuel _ => by simp [retry]⟩
  | succ n ih =>
    intro ps junk
    rcases C39_loop dim direct inside ps junk with ⟨k, r, -, hk⟩ | ⟨k, -, hk⟩
    · rcases reorder_rest dim inside ps r with ⟨hr, -⟩ | ⟨ps', -, hr⟩
      · refine ⟨k, fun fuel hf => ?_⟩
        have := loop_mono hk hf
        simp only [rest] at this hr ⊢
        simp [retry, this, hr]
      · obtain ⟨N, hN⟩ := ih ps' r
        refine ⟨max k N, fun fuel hf => ?_⟩
        have := loop_mono hk (le_trans (le_max_left k N) hf)
        have h' := hN fuel (le_trans (le_max_right k N) hf)
        simp only [rest] at this hr h' ⊢
        simpa [retry, this, hr] using h'
    · refine ⟨k, fun fuel hf => ?_⟩
      have := loop_mono hk hf
      simp only [rest] at this ⊢
      simp [retry, this]

/-- The whole function always comes to an end. -/
theorem C39_terminates (ps : List P) (junk : R) :
    ∃ N, ∀ fuel, N ≤ fuel → run dim direct inside fuel ps junk ≠ .stuck := by
  obtain ⟨N, hN⟩ := retry_terminates dim direct inside 100 ps.reverse junk
  refine ⟨N, fun fuel hf => ?_⟩
  have := hN fuel hf
  simpa [run, init, rest, List.map_const'] using this

private theorem retry_ok (fuel n : ℕ) : ∀ (ps : List P) (junk r : R) (w : Bool), 0 < n →
    retry dim direct inside fuel n (rest dim ps junk) = .ok r w →
    ∃ ps' : List P, ps'.Perm ps ∧ Spec.welzl dim direct inside ps' [] = some r ∧
      (w = false → ∀ p ∈ ps, inside r p = true) := by
  induction n with
  | zero => intro _ _ _ _ h; omega
  | succ n ih =>
    intro ps junk r w _ h
    simp only [retry] at h
    cases hl : loop dim direct inside fuel (rest dim ps junk) with
    | none => rw [hl] at h; simp at h
    | some o =>
      rw [hl] at h
      have hdet : ∀ k o', loop dim direct inside k (rest dim ps junk) = some o' → o = o' := by
        intro k o' hk
        have h1 := loop_mono hl (le_max_left fuel k)
        have h2 := loop_mono hk (le_max_right fuel k)
        rw [h1] at h2; exact Option.some.inj h2
      rcases C39_loop dim direct inside ps junk with ⟨k, r1, hw, hk⟩ | ⟨k, -, hk⟩
      · obtain rfl := hdet k _ hk
        dsimp only at h
        rcases reorder_rest dim inside ps r1 with ⟨hr, hin⟩ | ⟨ps', hp, hr⟩
        · simp only [rest] at hr
          rw [hr] at h
          simp only [Res.ok.injEq] at h
          obtain ⟨rfl, rfl⟩ := h
          exact ⟨ps, List.Perm.refl _, hw, fun _ => hin⟩
        · simp only [rest] at hr
          rw [hr] at h
          rcases Nat.eq_zero_or_pos n with rfl | hn
          · simp only [retry, Res.ok.injEq] at h
            obtain ⟨rfl, rfl⟩ := h
            exact ⟨ps, List.Perm.refl _, hw, fun h => by simp at h⟩
          · obtain ⟨ps'', hp'', hw'', hin⟩ := ih ps' r1 r w hn h
            exact ⟨ps'', hp''.trans hp, hw'', fun hf p hpm => hin hf p (hp.mem_iff.mpr hpm)⟩
      · obtain rfl := hdet k _ hk
        simp at h

/-- When the function returns without the warning, every point of the set passes the inside test of
the returned ball; with or without it, the ball is the one of Welzl's recursion on some ordering of
the points. -/
theorem C39_run (fuel : ℕ) (ps : List P) (junk r : R) (w : Bool)
    (h : run dim direct inside fuel ps junk = .ok r w) :
    (w = false → ∀ p ∈ ps, inside r p = true) ∧
    ∃ ps' : List P, ps'.Perm ps ∧ Spec.welzl dim direct inside ps' [] = some r := by
  have e : init dim ps junk = rest dim ps.reverse junk := by
    simp [init, rest, List.map_const']
  rw [run, e] at h
  obtain ⟨ps', hp, hw, hin⟩ := retry_ok dim direct inside fuel 100 ps.reverse junk r w (by norm_num) h
  exact ⟨fun hf p hpm => hin hf p (by simpa using hpm), ps', hp.trans (List.reverse_perm ps), hw⟩

/-- If Welzl's recursion on the points, the last one first, delivers a ball that all points are
inside of, then that ball is returned at once. -/
theorem C39_first_try (ps : List P) (junk r : R)
    (hw : Spec.welzl dim direct inside ps.reverse [] = some r) (hin : ∀ p ∈ ps, inside r p = true) :
    ∃ N, ∀ fuel, N ≤ fuel → run dim direct inside fuel ps junk = .ok r false := by
  have e : init dim ps junk = rest dim ps.reverse junk := by
    simp [init, rest, List.map_const']
  rcases C39_loop dim direct inside ps.reverse junk with ⟨k, r1, hw1, hk⟩ | ⟨k, hw1, -⟩
  · obtain rfl : r = r1 := Option.some.inj (hw.symm.trans hw1)
    refine ⟨k, fun fuel hf => ?_⟩
    have h1 := loop_mono hk hf
    rw [run, e]
    rcases reorder_rest dim inside ps.reverse r with ⟨hr, -⟩ | ⟨ps', -, hr⟩
    · simp only [rest] at h1 hr ⊢
      show retry dim direct inside fuel (99 + 1) _ = _
      rw [retry, h1]
      dsimp only
      rw [hr]
    · cases hf' : findOutlier inside r ps.reverse with
      | none => simp [reorder, rest, hf'] at hr
      | some x =>
        obtain ⟨a, q, b⟩ := x
        obtain ⟨h2, h3⟩ := findOutlier_some hf'
        have := hin q (by rw [← List.mem_reverse, h2]; simp)
        simp [this] at h3
  · rw [hw] at hw1; simp at hw1

/-- The recursion only ever computes direct balls of at most `dim` points, all of them points of
the set. -/
theorem welzl_direct {dim : ℕ} {direct : List P → Option R} {inside : R → P → Bool}
    (ps : List P) : ∀ (sh : List P) (r : R), sh.length ≤ dim →
    Spec.welzl dim direct inside ps sh = some r →
    ∃ l : List P, l.length ≤ dim ∧ (∀ p ∈ l, p ∈ ps ∨ p ∈ sh) ∧ direct l = some r := by
  induction ps with
  | nil => intro sh r hs h; exact ⟨sh, hs, fun p hp => Or.inr hp, h⟩
  | cons p ps ih =>
    intro sh r hs h
    simp only [Spec.welzl] at h
    split_ifs at h with hfull
    · exact ⟨sh, hs, fun p hp => Or.inr hp, h⟩
    · cases hw : Spec.welzl dim direct inside ps sh with
      | none => rw [hw] at h; simp at h
      | some r1 =>
        rw [hw] at h
        dsimp only at h
        by_cases hi : inside r1 p = true
        · rw [if_pos hi] at h
          obtain rfl := Option.some.inj h
          obtain ⟨l, hl, hm, hd⟩ := ih sh r1 hs hw
          exact ⟨l, hl, fun q hq => (hm q hq).imp (List.mem_cons_of_mem _) id, hd⟩
        · rw [if_neg hi] at h
          obtain ⟨l, hl, hm, hd⟩ := ih (p :: sh) r (by simp only [List.length_cons]; omega) h
          refine ⟨l, hl, fun q hq => ?_, hd⟩
          rcases hm q hq with h1 | h1
          · exact Or.inl (List.mem_cons_of_mem _ h1)
          · rcases List.mem_cons.mp h1 with rfl | h1
            · exact Or.inl List.mem_cons_self
            · exact Or.inr h1

end Generic

/-! ## The 3D and 2D functions -/

/-- The points of a three-dimensional set are all closer to the center than the radius plus the
tolerance, if `zVec3DDataBoundingBall` returns without the retry warning. -/
theorem C39_bounds (τ : ℝ) (fuel : ℕ) (d : Data (Vec3 ℝ)) (hd : d.WF) (xs : List (Vec3 ℝ))
    (hx : d.Shows xs) (junk b : Ball3) (h : boundingBall3 τ fuel d junk = .ok b false) :
    ∀ p ∈ xs, Spec.ed b.ball.center p < b.ball.radius + τ := by
  obtain rfl := C35_shows_unique d _ _ hx (C35_toAddrList d hd)
  intro p hp
  have := (C39_run _ _ _ _ _ _ _ _ h).1 rfl p hp
  exact (C22_pointIsInside _ _ _).mp (by simpa using this)

/-- The same in two dimensions. -/
theorem C39_bounds2D (τ : ℝ) (fuel : ℕ) (d : Data (Vec2 ℝ)) (hd : d.WF) (xs : List (Vec2 ℝ))
    (hx : d.Shows xs) (junk b : Ball2) (h : boundingBall2 τ fuel d junk = .ok b false) :
    ∀ p ∈ xs, Spec.ed2 b.ball.center p < b.ball.radius + τ := by
  obtain rfl := C35_shows_unique d _ _ hx (C35_toAddrList d hd)
  intro p hp
  have := (C39_run _ _ _ _ _ _ _ _ h).1 rfl p hp
  exact (C22_disk _ _ _).2.mp (by simpa using this)

private theorem four_vp {τ : ℝ} {v0 v1 v2 v3 : Vec3 ℝ} {b : Ball3}
    (h : bb3Four τ v0 v1 v2 v3 = some b) :
    b.num = b.vp.length ∧ b.num ≤ 4 ∧ 2 ≤ b.num ∧ (∀ p ∈ b.vp, p = v0 ∨ p = v1 ∨ p = v2 ∨ p = v3) ∧
    (b.num = 2 → ∃ p q, b.vp = [p, q] ∧ b.ball = .from2 p q) ∧
    (b.num = 3 → ∃ p q r, b.vp = [p, q, r] ∧ b.ball = .from3 p q r) ∧
    (b.num = 4 → ∃ p q r s, b.vp = [p, q, r, s] ∧ Sphere3.from4 p q r s = some b.ball) := by
  simp only [bb3Four, Option.orElse_eq_orElse, Option.orElse_eq_or, Option.or_eq_some_iff] at h
  have t2 : ∀ w x y z : Vec3 ℝ, bb3Test2 τ w x y z = some b → b = ⟨.from2 w x, 2, [w, x]⟩ := by
    intro w x y z h
    simp only [bb3Test2] at h
    split_ifs at h
    exact (Option.some.inj h).symm
  have t3 : ∀ w x y z : Vec3 ℝ, bb3Test3 τ w x y z = some b → b = ⟨.from3 w x y, 3, [w, x, y]⟩ := by
    intro w x y z h
    simp only [bb3Test3] at h
    split_ifs at h
    exact (Option.some.inj h).symm
  rcases h with h | ⟨-, h | ⟨-, h | ⟨-, h | ⟨-, h | ⟨-, h | ⟨-, h | ⟨-, h | ⟨-, h | ⟨-, h⟩⟩⟩⟩⟩⟩⟩⟩⟩
  iterate 6
    · obtain rfl := t2 _ _ _ _ h
      refine ⟨rfl, by norm_num, le_rfl, by simp; try tauto, fun _ => ⟨_, _, rfl, rfl⟩, by simp, by simp⟩
  iterate 3
    · obtain rfl := t3 _ _ _ _ h
      refine ⟨rfl, by norm_num, by norm_num, by simp; try tauto, by simp, fun _ => ⟨_, _, _, rfl, rfl⟩,
        by simp⟩
  · simp only [bb3Test4, Option.map_eq_some_iff] at h
    obtain ⟨s, hs, rfl⟩ := h
    exact ⟨rfl, le_rfl, by norm_num, by simp, by simp, by simp, fun _ => ⟨_, _, _, _, rfl, hs⟩⟩

/-- What is known of the direct balls: the contact points belong to the list, their number is the
returned one, at most four, and the ball is the one they determine. -/
private theorem direct_vp {τ : ℝ} {l : List (Vec3 ℝ)} {b : Ball3} (h : bb3Direct τ l = some b) :
    b.num = b.vp.length ∧ b.num ≤ 4 ∧ (∀ p ∈ b.vp, p ∈ l) ∧
    (b.num = 0 → l = []) ∧
    (b.num = 1 → ∃ p, b.vp = [p] ∧ b.ball = ⟨p, 0⟩) ∧
    (b.num = 2 → ∃ p q, b.vp = [p, q] ∧ b.ball = .from2 p q) ∧
    (b.num = 3 → ∃ p q r, b.vp = [p, q, r] ∧ b.ball = .from3 p q r) ∧
    (b.num = 4 → ∃ p q r s, b.vp = [p, q, r, s] ∧ Sphere3.from4 p q r s = some b.ball) := by
  match l, h with
  | [], h => obtain rfl := Option.some.inj h; simp
  | [a], h => obtain rfl := Option.some.inj h; simp
  | [a, c], h => obtain rfl := Option.some.inj h; simp
  | [a, c, e], h =>
    obtain ⟨h1, h2, h3, h4, h5⟩ := four_vp h
    refine ⟨h1, h2, fun p hp => ?_, by omega, by omega, h5⟩
    rcases h4 p hp with rfl | rfl | rfl | rfl <;> simp
  | [a, c, e, f], h =>
    obtain ⟨h1, h2, h3, h4, h5⟩ := four_vp h
    refine ⟨h1, h2, fun p hp => ?_, by omega, by omega, h5⟩
    rcases h4 p hp with rfl | rfl | rfl | rfl <;> simp
  | _ :: _ :: _ :: _ :: _ :: _, h => simp [bb3Direct] at h

/-- The contact points: `vp` receives as many points as the function returns, at most four, all of
them points of the set; 0 is returned only for the empty set. They lie on the sphere of the ball
(three of them: provided they are not collinear). -/
theorem C39_contacts (τ : ℝ) (fuel : ℕ) (d : Data (Vec3 ℝ)) (hd : d.WF) (xs : List (Vec3 ℝ))
    (hx : d.Shows xs) (junk b : Ball3) (w : Bool) (h : boundingBall3 τ fuel d junk = .ok b w) :
    b.num = b.vp.length ∧ b.num ≤ 4 ∧ (∀ p ∈ b.vp, p ∈ xs) ∧
    (b.num ≠ 3 → ∀ p ∈ b.vp, Spec.ed b.ball.center p = b.ball.radius) ∧
    (∀ p q r, b.vp = [p, q, r] → (q.sub p).outer (r.sub p) ≠ .zero →
      ∀ v ∈ b.vp, Spec.ed b.ball.center v = b.ball.radius) := by
  obtain rfl := C35_shows_unique d _ _ hx (C35_toAddrList d hd)
  obtain ⟨-, ps', hp, hw⟩ := C39_run _ _ _ _ _ _ _ _ h
  obtain ⟨l, hl, hm, hdir⟩ := welzl_direct _ _ _ (Nat.zero_le _) hw
  obtain ⟨h1, h2, h3, h0, h4, h5, h6, h7⟩ := direct_vp hdir
  refine ⟨h1, h2, fun p hpm => ?_, fun hn p hpm => ?_, fun p q r hv hne v hvm => ?_⟩
  · rcases hm p (h3 p hpm) with h8 | h8
    · exact hp.mem_iff.mp h8
    · simp at h8
  · have : b.num = 0 ∨ b.num = 1 ∨ b.num = 2 ∨ b.num = 4 := by omega
    rcases this with e | e | e | e
    · rw [e] at h1
      rw [List.length_eq_zero_iff.mp h1.symm] at hpm
      simp at hpm
    · obtain ⟨p', hv, hb⟩ := h4 e
      rw [hv] at hpm
      obtain rfl := List.mem_singleton.mp hpm
      rw [hb]; simp [Spec.ed, Spec.sqd]
    · obtain ⟨p1, p2, hv, hb⟩ := h5 e
      rw [hv] at hpm
      have := C22_from2 p1 p2
      rw [hb]
      rcases List.mem_pair.mp hpm with rfl | rfl
      · exact this.1
      · exact this.2.1
    · obtain ⟨p1, p2, p3, p4, hv, hb⟩ := h7 e
      by_cases hc : (p2.sub p1).inner ((p3.sub p1).outer (p4.sub p1)) = 0
      · rw [C22_from4_coplanar _ _ _ _ hc] at hb; simp at hb
      · obtain ⟨s, hs, e1, e2, e3, e4⟩ := C22_from4 _ _ _ _ hc
        obtain rfl : s = b.ball := Option.some.inj (hs.symm.trans hb)
        rw [hv] at hpm
        simp only [List.mem_cons, List.not_mem_nil, or_false] at hpm
        rcases hpm with rfl | rfl | rfl | rfl <;> assumption
  · have e : b.num = 3 := by rw [h1, hv]; rfl
    obtain ⟨p1, p2, p3, hv', hb⟩ := h6 e
    rw [hv] at hv'
    simp only [List.cons.injEq, and_true] at hv'
    obtain ⟨rfl, rfl, rfl⟩ := hv'
    have := C22_from3 p q r hne
    rw [hb]
    rw [hv] at hvm
    simp only [List.mem_cons, List.not_mem_nil, or_false] at hvm
    rcases hvm with rfl | rfl | rfl
    · exact this.1
    · exact this.2.1
    · exact this.2.2

private theorem ed_triangle' (a b c : Vec3 ℝ) : Spec.ed a c ≤ Spec.ed b a + Spec.ed b c := by
  have h := Spec.sqd a c
  have e1 : 0 ≤ Spec.ed b a := Real.sqrt_nonneg _
  have e2 : 0 ≤ Spec.ed b c := Real.sqrt_nonneg _
  have s1 : Spec.ed b a ^ 2 = Spec.sqd b a := Real.sq_sqrt (sqd_nonneg _ _)
  have s2 : Spec.ed b c ^ 2 = Spec.sqd b c := Real.sq_sqrt (sqd_nonneg _ _)
  have s3 : Spec.ed a c ^ 2 = Spec.sqd a c := Real.sq_sqrt (sqd_nonneg _ _)
  have cs : ((a.x - b.x) * (b.x - c.x) + (a.y - b.y) * (b.y - c.y) + (a.z - b.z) * (b.z - c.z)) ^ 2 ≤
      Spec.sqd b a * Spec.sqd b c := by
    simp only [Spec.sqd]
    nlinarith [sq_nonneg ((a.x - b.x) * (b.y - c.y) - (a.y - b.y) * (b.x - c.x)),
      sq_nonneg ((a.y - b.y) * (b.z - c.z) - (a.z - b.z) * (b.y - c.y)),
      sq_nonneg ((a.z - b.z) * (b.x - c.x) - (a.x - b.x) * (b.z - c.z))]
  have cs' : (a.x - b.x) * (b.x - c.x) + (a.y - b.y) * (b.y - c.y) + (a.z - b.z) * (b.z - c.z) ≤
      Spec.ed b a * Spec.ed b c := by
    refine le_trans (le_abs_self _) (abs_le_of_sq_le_sq ?_ (mul_nonneg e1 e2))
    rw [mul_pow, s1, s2]; exact cs
  refine le_of_sq_le_sq ?_ (add_nonneg e1 e2)
  rw [s3, add_sq, s1, s2]
  simp only [Spec.sqd] at *
  nlinarith

/-- When the function reports at most two contact points, its ball is the smallest possible: every
ball containing the set has at least its radius. -/
theorem C39_smallest_two_contacts (τ : ℝ) (fuel : ℕ) (d : Data (Vec3 ℝ)) (hd : d.WF)
    (xs : List (Vec3 ℝ)) (hx : d.Shows xs) (hne : xs ≠ []) (junk b : Ball3) (w : Bool)
    (h : boundingBall3 τ fuel d junk = .ok b w) (hn : b.num ≤ 2) (c : Vec3 ℝ) (r : ℝ)
    (hc : ∀ p ∈ xs, Spec.ed c p ≤ r) : b.ball.radius ≤ r := by
  obtain ⟨c1, c2, c3, -⟩ := C39_contacts τ fuel d hd xs hx junk b w h
  obtain rfl := C35_shows_unique d _ _ hx (C35_toAddrList d hd)
  obtain ⟨x, hxm⟩ := List.exists_mem_of_ne_nil _ hne
  have hr : 0 ≤ r := le_trans (Real.sqrt_nonneg _) (hc x hxm)
  obtain ⟨-, ps', hp, hw⟩ := C39_run _ _ _ _ _ _ _ _ h
  obtain ⟨l, hl, hm, hdir⟩ := welzl_direct _ _ _ (Nat.zero_le _) hw
  obtain ⟨h1, h2, h3, h0, h4, h5, h6, h7⟩ := direct_vp hdir
  have : b.num = 0 ∨ b.num = 1 ∨ b.num = 2 := by omega
  rcases this with e | e | e
  · have := h0 e
    subst this
    obtain rfl := Option.some.inj hdir
    show (-1 : ℝ) ≤ r
    linarith
  · obtain ⟨p, hv, hb⟩ := h4 e
    rw [hb]; exact hr
  · obtain ⟨p, q, hv, hb⟩ := h5 e
    have e3 := (C22_from2 p q).2.2
    rw [← hb] at e3
    have hp1 := hc p (c3 p (by rw [hv]; simp))
    have hq1 := hc q (c3 q (by rw [hv]; simp))
    have := ed_triangle' p c q
    linarith

/-! ### Two dimensions: the disk is the smallest one -/

private theorem test2_fails {τ : ℝ} (hτ : 0 < τ) {a b c : Vec2 ℝ} (h : bb2Test2 τ a b c = none) :
    0 < (a.x - c.x) * (b.x - c.x) + (a.y - c.y) * (b.y - c.y) := by
  simp only [bb2Test2] at h
  split_ifs at h with hi
  rw [(C22_disk _ _ _).2, not_lt] at hi
  have hr : (Disk2.from2 a b).radius = Spec.ed2 (a.mid b) a := by rw [Disk2.from2, dist_eq_ed2]
  have hc : (Disk2.from2 a b).center = a.mid b := rfl
  rw [hr, hc] at hi
  have h1 : Spec.ed2 (a.mid b) a < Spec.ed2 (a.mid b) c := by linarith
  have h2 := (Real.sqrt_lt_sqrt_iff (sqd2_nonneg _ _)).mp h1
  simp only [Spec.sqd2, zeo] at h2
  linarith

private theorem acute_ne {v0 v1 v2 : Vec2 ℝ}
    (h2 : 0 < (v0.x - v2.x) * (v1.x - v2.x) + (v0.y - v2.y) * (v1.y - v2.y))
    (h0 : 0 < (v1.x - v0.x) * (v2.x - v0.x) + (v1.y - v0.y) * (v2.y - v0.y))
    (h1 : 0 < (v2.x - v1.x) * (v0.x - v1.x) + (v2.y - v1.y) * (v0.y - v1.y)) :
    (v1.sub v0).outer (v2.sub v0) ≠ 0 := by
  intro e
  simp only [zeo] at e
  have a1 : 0 < ((v1.x - v0.x)^2 + (v1.y - v0.y)^2) * ((v2.x - v0.x)^2 + (v2.y - v0.y)^2) -
      ((v1.x - v0.x) * (v2.x - v0.x) + (v1.y - v0.y) * (v2.y - v0.y))^2 := by
    have b1 : (v1.x - v0.x) * (v2.x - v0.x) + (v1.y - v0.y) * (v2.y - v0.y) <
      (v1.x - v0.x)^2 + (v1.y - v0.y)^2 := by nlinarith
    have b2 : (v1.x - v0.x) * (v2.x - v0.x) + (v1.y - v0.y) * (v2.y - v0.y) <
      (v2.x - v0.x)^2 + (v2.y - v0.y)^2 := by nlinarith
    nlinarith [mul_pos (sub_pos.mpr b1) (sub_pos.mpr b2)]
  have : ((v1.x - v0.x)^2 + (v1.y - v0.y)^2) * ((v2.x - v0.x)^2 + (v2.y - v0.y)^2) -
      ((v1.x - v0.x) * (v2.x - v0.x) + (v1.y - v0.y) * (v2.y - v0.y))^2 =
      ((v1.x - v0.x) * (v2.y - v0.y) - (v1.y - v0.y) * (v2.x - v0.x))^2 := by ring
  rw [this, e] at a1
  simp at a1

/-- The circumcenter is the mean of the corners with these weights. -/
private theorem acute_weights {v0 v1 v2 : Vec2 ℝ}
    (h2 : 0 < (v0.x - v2.x) * (v1.x - v2.x) + (v0.y - v2.y) * (v1.y - v2.y))
    (h0 : 0 < (v1.x - v0.x) * (v2.x - v0.x) + (v1.y - v0.y) * (v2.y - v0.y))
    (h1 : 0 < (v2.x - v1.x) * (v0.x - v1.x) + (v2.y - v1.y) * (v0.y - v1.y)) :
    ∃ w0 w1 w2 : ℝ, 0 ≤ w0 ∧ 0 ≤ w1 ∧ 0 ≤ w2 ∧ 0 < w0 + w1 + w2 ∧
      (w0 + w1 + w2) * (Tri2.circumcenter v0 v1 v2).x = w0 * v0.x + w1 * v1.x + w2 * v2.x ∧
      (w0 + w1 + w2) * (Tri2.circumcenter v0 v1 v2).y = w0 * v0.y + w1 * v1.y + w2 * v2.y := by
  have hne := acute_ne h2 h0 h1
  obtain ⟨w0, hw0⟩ : ∃ w, w = v2.sqrDist v1 * (v0.sqrDist v2 + v1.sqrDist v0 - v2.sqrDist v1) := ⟨_, rfl⟩
  obtain ⟨w1, hw1⟩ : ∃ w, w = v0.sqrDist v2 * (v1.sqrDist v0 + v2.sqrDist v1 - v0.sqrDist v2) := ⟨_, rfl⟩
  obtain ⟨w2, hw2⟩ : ∃ w, w = v1.sqrDist v0 * (v2.sqrDist v1 + v0.sqrDist v2 - v1.sqrDist v0) := ⟨_, rfl⟩
  have p0 : 0 ≤ w0 := by
    rw [hw0]; exact mul_nonneg (by simp only [zeo]; exact add_nonneg (mul_self_nonneg _) (mul_self_nonneg _)) (by simp only [zeo]; linarith)
  have p1 : 0 ≤ w1 := by
    rw [hw1]; exact mul_nonneg (by simp only [zeo]; exact add_nonneg (mul_self_nonneg _) (mul_self_nonneg _)) (by simp only [zeo]; linarith)
  have p2 : 0 ≤ w2 := by
    rw [hw2]; exact mul_nonneg (by simp only [zeo]; exact add_nonneg (mul_self_nonneg _) (mul_self_nonneg _)) (by simp only [zeo]; linarith)
  have hW : w0 + w1 + w2 = 4 * ((v1.sub v0).outer (v2.sub v0)) ^ 2 := by
    rw [hw0, hw1, hw2]; simp only [zeo]; ring
  have hWp : 0 < w0 + w1 + w2 := by rw [hW]; positivity
  have hcirc : Tri2.circumcenter v0 v1 v2 = ⟨(w0 * v0.x + w1 * v1.x + w2 * v2.x) / (w0 + w1 + w2),
      (w0 * v0.y + w1 * v1.y + w2 * v2.y) / (w0 + w1 + w2)⟩ := by rw [hw0, hw1, hw2]; rfl
  have cx : (w0 + w1 + w2) * (Tri2.circumcenter v0 v1 v2).x = w0 * v0.x + w1 * v1.x + w2 * v2.x := by
    rw [hcirc]; exact mul_div_cancel₀ _ hWp.ne'
  have cy : (w0 + w1 + w2) * (Tri2.circumcenter v0 v1 v2).y = w0 * v0.y + w1 * v1.y + w2 * v2.y := by
    rw [hcirc]; exact mul_div_cancel₀ _ hWp.ne'
  exact ⟨w0, w1, w2, p0, p1, p2, hWp, cx, cy⟩

/-- An acute triangle: a disk that contains its corners is at least as large as the circumscribed
one. -/
private theorem acute_min {v0 v1 v2 : Vec2 ℝ}
    (h2 : 0 < (v0.x - v2.x) * (v1.x - v2.x) + (v0.y - v2.y) * (v1.y - v2.y))
    (h0 : 0 < (v1.x - v0.x) * (v2.x - v0.x) + (v1.y - v0.y) * (v2.y - v0.y))
    (h1 : 0 < (v2.x - v1.x) * (v0.x - v1.x) + (v2.y - v1.y) * (v0.y - v1.y)) :
    (v1.sub v0).outer (v2.sub v0) ≠ 0 ∧
    ∀ (c : Vec2 ℝ) (r : ℝ), Spec.ed2 c v0 ≤ r → Spec.ed2 c v1 ≤ r → Spec.ed2 c v2 ≤ r →
      (Disk2.from3 v0 v1 v2).radius ≤ r := by
  have hne := acute_ne h2 h0 h1
  refine ⟨hne, fun c r hc0 hc1 hc2 => ?_⟩
  obtain ⟨e0, e1, e2⟩ := C22_disk_from3 v0 v1 v2 hne
  have hr : 0 ≤ r := le_trans (Real.sqrt_nonneg _) hc0
  have sq : ∀ p q : Vec2 ℝ, Spec.ed2 p q ^ 2 = Spec.sqd2 p q := fun p q => Real.sq_sqrt (sqd2_nonneg _ _)
  have up : ∀ p : Vec2 ℝ, Spec.ed2 c p ≤ r → Spec.sqd2 c p ≤ r ^ 2 := fun p hp => by
    rw [← sq]; exact pow_le_pow_left₀ (Real.sqrt_nonneg _) hp 2
  have f0 := up _ hc0
  have f1 := up _ hc1
  have f2 := up _ hc2
  have g0 := sq (Disk2.from3 v0 v1 v2).center v0
  have g1 := sq (Disk2.from3 v0 v1 v2).center v1
  have g2 := sq (Disk2.from3 v0 v1 v2).center v2
  rw [e0] at g0; rw [e1] at g1; rw [e2] at g2
  refine le_of_sq_le_sq ?_ hr
  generalize (Disk2.from3 v0 v1 v2).radius = R at *
  have hcen : (Disk2.from3 v0 v1 v2).center = Tri2.circumcenter v0 v1 v2 := rfl
  rw [hcen] at g0 g1 g2
  -- the weights
  obtain ⟨w0, w1, w2, p0, p1, p2, hWp, cx, cy⟩ := acute_weights h2 h0 h1
  clear h0 h1 h2
  generalize Tri2.circumcenter v0 v1 v2 = o at *
  have key : w0 * Spec.sqd2 c v0 + w1 * Spec.sqd2 c v1 + w2 * Spec.sqd2 c v2 =
      (w0 + w1 + w2) * (Spec.sqd2 c o + R ^ 2) := by
    have : (w0 + w1 + w2) * R ^ 2 = w0 * Spec.sqd2 o v0 + w1 * Spec.sqd2 o v1 + w2 * Spec.sqd2 o v2 := by
      rw [← g0, ← g1, ← g2]; ring
    rw [mul_add, this]
    simp only [Spec.sqd2]
    linear_combination 2 * (c.x - o.x) * cx + 2 * (c.y - o.y) * cy
  have k1 := mul_le_mul_of_nonneg_left f0 p0
  have k2 := mul_le_mul_of_nonneg_left f1 p1
  have k3 := mul_le_mul_of_nonneg_left f2 p2
  have k4 := sqd2_nonneg c o
  refine le_of_mul_le_mul_left ?_ hWp
  nlinarith [mul_nonneg hWp.le k4]

private theorem pair_min {p q c : Vec2 ℝ} {r : ℝ} (hp : Spec.ed2 c p ≤ r) (hq : Spec.ed2 c q ≤ r) :
    (Disk2.from2 p q).radius ≤ r := by
  have hr : 0 ≤ r := le_trans (Real.sqrt_nonneg _) hp
  have e : (Disk2.from2 p q).radius = Spec.ed2 (p.mid q) p := by rw [Disk2.from2, dist_eq_ed2]
  have sq : ∀ p q : Vec2 ℝ, Spec.ed2 p q ^ 2 = Spec.sqd2 p q := fun p q => Real.sq_sqrt (sqd2_nonneg _ _)
  have h1 := pow_le_pow_left₀ (Real.sqrt_nonneg _) hp 2
  have h2 := pow_le_pow_left₀ (Real.sqrt_nonneg _) hq 2
  change Spec.ed2 c p ^ 2 ≤ _ at h1
  change Spec.ed2 c q ^ 2 ≤ _ at h2
  rw [e]
  refine le_of_sq_le_sq ?_ hr
  rw [sq] at *
  simp only [Spec.sqd2, zeo] at *
  nlinarith [sq_nonneg (c.x - (p.x + q.x) / 2), sq_nonneg (c.y - (p.y + q.y) / 2)]

/-- The direct disks of at most three points: contact points of the list, on the circle, and no
smaller disk contains them. -/
private theorem direct2 {τ : ℝ} (hτ : 0 < τ) {l : List (Vec2 ℝ)} {b : Ball2}
    (h : bb2Direct τ l = some b) :
    b.num = b.vp.length ∧ b.num ≤ 3 ∧ (∀ p ∈ b.vp, p ∈ l) ∧ (b.num = 0 → l = []) ∧
    (∀ p ∈ b.vp, Spec.ed2 b.ball.center p = b.ball.radius) ∧
    (∀ (c : Vec2 ℝ) (r : ℝ), 0 ≤ r → (∀ p ∈ b.vp, Spec.ed2 c p ≤ r) → b.ball.radius ≤ r) := by
  have two : ∀ p q : Vec2 ℝ, (∀ v ∈ [p, q], Spec.ed2 (Disk2.from2 p q).center v = (Disk2.from2 p q).radius) ∧
      (∀ (c : Vec2 ℝ) (r : ℝ), 0 ≤ r → (∀ v ∈ [p, q], Spec.ed2 c v ≤ r) → (Disk2.from2 p q).radius ≤ r) := by
    intro p q
    refine ⟨fun v hv => ?_, fun c r _ hc => pair_min (hc p (by simp)) (hc q (by simp))⟩
    rcases List.mem_pair.mp hv with rfl | rfl
    · exact (C22_disk_from2 _ _).1
    · exact (C22_disk_from2 _ _).2
  have t2 : ∀ x y z : Vec2 ℝ, bb2Test2 τ x y z = some b → b = ⟨.from2 x y, 2, [x, y]⟩ := by
    intro x y z h
    simp only [bb2Test2] at h
    split_ifs at h
    exact (Option.some.inj h).symm
  match l, h with
  | [], h => obtain rfl := Option.some.inj h; simp; intros; linarith
  | [a], h => obtain rfl := Option.some.inj h; simp [Spec.ed2, Spec.sqd2]; tauto
  | [a, c], h => obtain rfl := Option.some.inj h; exact ⟨rfl, by norm_num, by simp, by simp, two a c⟩
  | [a, c, e], h =>
    simp only [bb2Direct, bb2Three, Option.orElse_eq_orElse, Option.orElse_eq_or,
      Option.or_eq_some_iff] at h
    rcases h with h | ⟨n1, h | ⟨n2, h | ⟨n3, h⟩⟩⟩
    iterate 3
      · obtain rfl := t2 _ _ _ h
        exact ⟨rfl, by norm_num, by simp, by simp, two _ _⟩
    · obtain rfl := Option.some.inj h
      obtain ⟨hne, hmin⟩ := acute_min (test2_fails hτ n1) (test2_fails hτ n2) (test2_fails hτ n3)
      obtain ⟨e0, e1, e2⟩ := C22_disk_from3 _ _ _ hne
      refine ⟨rfl, le_rfl, by simp [bb2Test3], by simp [bb2Test3], fun v hv => ?_, fun o r _ ho =>
        hmin o r (ho _ (by simp [bb2Test3])) (ho _ (by simp [bb2Test3])) (ho _ (by simp [bb2Test3]))⟩
      simp only [bb2Test3, List.mem_cons, List.not_mem_nil, or_false] at hv
      rcases hv with rfl | rfl | rfl <;> assumption
  | _ :: _ :: _ :: _ :: _, h => simp [bb2Direct] at h

/-- The contact points in the plane: as many as returned, at most three, points of the set, on the
circle of the disk. -/
theorem C39_contacts2D (τ : ℝ) (hτ : 0 < τ) (fuel : ℕ) (d : Data (Vec2 ℝ)) (hd : d.WF)
    (xs : List (Vec2 ℝ)) (hx : d.Shows xs) (junk b : Ball2) (w : Bool)
    (h : boundingBall2 τ fuel d junk = .ok b w) :
    b.num = b.vp.length ∧ b.num ≤ 3 ∧ (∀ p ∈ b.vp, p ∈ xs) ∧
    (∀ p ∈ b.vp, Spec.ed2 b.ball.center p = b.ball.radius) := by
  obtain rfl := C35_shows_unique d _ _ hx (C35_toAddrList d hd)
  obtain ⟨-, ps', hp, hw⟩ := C39_run _ _ _ _ _ _ _ _ h
  obtain ⟨l, hl, hm, hdir⟩ := welzl_direct _ _ _ (Nat.zero_le _) hw
  obtain ⟨h1, h2, h3, h4, h5, h6⟩ := direct2 hτ hdir
  refine ⟨h1, h2, fun p hpm => ?_, h5⟩
  rcases hm p (h3 p hpm) with h8 | h8
  · exact hp.mem_iff.mp h8
  · simp at h8

/-- The returned disk is the smallest one: every disk that contains the set has at least its
radius. -/
theorem C39_smallest2D (τ : ℝ) (hτ : 0 < τ) (fuel : ℕ) (d : Data (Vec2 ℝ)) (hd : d.WF)
    (xs : List (Vec2 ℝ)) (hx : d.Shows xs) (hne : xs ≠ []) (junk b : Ball2) (w : Bool)
    (h : boundingBall2 τ fuel d junk = .ok b w) (c : Vec2 ℝ) (r : ℝ)
    (hc : ∀ p ∈ xs, Spec.ed2 c p ≤ r) : b.ball.radius ≤ r := by
  obtain ⟨-, -, h3, -⟩ := C39_contacts2D τ hτ fuel d hd xs hx junk b w h
  obtain rfl := C35_shows_unique d _ _ hx (C35_toAddrList d hd)
  obtain ⟨x, hxm⟩ := List.exists_mem_of_ne_nil _ hne
  have hr : 0 ≤ r := le_trans (Real.sqrt_nonneg _) (hc x hxm)
  obtain ⟨-, ps', hp, hw⟩ := C39_run _ _ _ _ _ _ _ _ h
  obtain ⟨l, hl, hm, hdir⟩ := welzl_direct _ _ _ (Nat.zero_le _) hw
  exact (direct2 hτ hdir).2.2.2.2.2 c r hr fun p hpm => hc p (h3 p hpm)

private theorem direct2_some (τ : ℝ) (l : List (Vec2 ℝ)) (h : l.length ≤ 3) :
    bb2Direct τ l ≠ none := by
  match l, h with
  | [], _ => simp [bb2Direct]
  | [_], _ => simp [bb2Direct]
  | [_, _], _ => simp [bb2Direct]
  | [_, _, _], _ => simp [bb2Direct, bb2Three]
  | _ :: _ :: _ :: _ :: _, h => simp only [List.length_cons] at h; omega

private theorem welzl_some {P R : Type*} {dim : ℕ} {direct : List P → Option R}
    {inside : R → P → Bool} {k : ℕ} (hdir : ∀ l : List P, l.length ≤ k → l.length ≤ dim → direct l ≠ none)
    (ps : List P) : ∀ sh : List P, ps.length + sh.length ≤ k → sh.length ≤ dim →
      Spec.welzl dim direct inside ps sh ≠ none := by
  induction ps with
  | nil => intro sh h hd; exact hdir sh (by simpa using h) hd
  | cons p ps ih =>
    intro sh h hd
    simp only [List.length_cons] at h
    simp only [Spec.welzl]
    split_ifs with hf
    · exact hdir sh (by omega) hd
    · cases hw : Spec.welzl dim direct inside ps sh with
      | none => exact absurd hw (ih sh (by omega) hd)
      | some r =>
        dsimp only
        split_ifs
        · simp
        · exact ih (p :: sh) (by simp only [List.length_cons]; omega)
            (by simp only [List.length_cons]; omega)

private theorem retry_no_crash {P R : Type*} {dim : ℕ} {direct : List P → Option R}
    {inside : R → P → Bool} (fuel n : ℕ) : ∀ (ps : List P) (junk : R),
    (∀ ps' : List P, ps'.Perm ps → Spec.welzl dim direct inside ps' [] ≠ none) →
    retry dim direct inside fuel n (rest dim ps junk) ≠ .crash := by
  induction n with
  | zero => intro ps junk _; simp [retry]
  | succ n ih =>
    intro ps junk hall h
    simp only [retry] at h
    cases hl : loop dim direct inside fuel (rest dim ps junk) with
    | none => rw [hl] at h; simp at h
    | some o =>
      rw [hl] at h
      rcases C39_loop dim direct inside ps junk with ⟨k, r1, hw, hk⟩ | ⟨k, hw, -⟩
      · obtain rfl : o = _ := by
          have h1 := loop_mono hl (le_max_left fuel k)
          have h2 := loop_mono hk (le_max_right fuel k)
          exact Option.some.inj (h1.symm.trans h2)
        dsimp only at h
        rcases reorder_rest dim inside ps r1 with ⟨hr, hin⟩ | ⟨ps', hp, hr⟩
        · simp only [rest] at hr
          rw [hr] at h
          simp at h
        · simp only [rest] at hr
          rw [hr] at h
          exact ih ps' r1 (fun q hq => hall q (hq.trans hp)) h
      · exact hall ps (List.Perm.refl _) hw

open Classical in
/-- The planar function is total: it always ends and returns a disk. -/
theorem C39_total2D (τ : ℝ) (d : Data (Vec2 ℝ)) (junk : Ball2) :
    ∃ N, ∀ fuel, N ≤ fuel → ∃ b w, boundingBall2 τ fuel d junk = .ok b w := by
  obtain ⟨N, hN⟩ := C39_terminates 3 (bb2Direct τ)
    (fun b p => decide (b.ball.pointIsInside p τ)) d.toAddrList junk
  refine ⟨N, fun fuel hf => ?_⟩
  have h1 := hN fuel hf
  have h2 := retry_no_crash (dim := 3) (direct := bb2Direct τ)
    (inside := fun b p => decide (b.ball.pointIsInside p τ)) fuel 100 d.toAddrList.reverse junk
    (fun ps' _ => welzl_some (k := ps'.length + 3) (fun l _ h => direct2_some τ l h) ps' []
      (by simp) (by simp))
  have e : init 3 d.toAddrList junk = rest 3 d.toAddrList.reverse junk := by
    simp [init, rest, List.map_const']
  rw [← e] at h2
  change boundingBall2 τ fuel d junk ≠ _ at h1 h2
  cases hb : boundingBall2 τ fuel d junk with
  | ok b w => exact ⟨b, w, rfl⟩
  | crash => exact absurd hb h2
  | stuck => exact absurd hb h1

/-- The direct computation for up to four points: the ball contains all of them, within the tolerance
(if it is determined by three of them: provided those are not collinear). -/
theorem C39_direct_contains (τ : ℝ) (hτ : 0 < τ) (l : List (Vec3 ℝ)) (b : Ball3)
    (h : bb3Direct τ l = some b)
    (h3 : ∀ p q r, b.vp = [p, q, r] → (q.sub p).outer (r.sub p) ≠ .zero) :
    ∀ p ∈ l, Spec.ed b.ball.center p < b.ball.radius + τ := by
  have t2 : ∀ w x y z : Vec3 ℝ, bb3Test2 τ w x y z = some b →
      ∀ p, p = w ∨ p = x ∨ p = y ∨ p = z → Spec.ed b.ball.center p < b.ball.radius + τ := by
    intro w x y z h p hp
    simp only [bb3Test2] at h
    split_ifs at h with hi
    rw [not_or, not_not, not_not] at hi
    obtain rfl := Option.some.inj h
    have e := C22_from2 w x
    rcases hp with rfl | rfl | rfl | rfl
    · have := e.1; dsimp only; linarith
    · have := e.2.1; dsimp only; linarith
    · exact (C22_pointIsInside _ _ _).mp hi.1
    · exact (C22_pointIsInside _ _ _).mp hi.2
  have t3 : ∀ w x y z : Vec3 ℝ, bb3Test3 τ w x y z = some b →
      ∀ p, p = w ∨ p = x ∨ p = y ∨ p = z → Spec.ed b.ball.center p < b.ball.radius + τ := by
    intro w x y z h p hp
    simp only [bb3Test3] at h
    split_ifs at h with hi
    obtain rfl := Option.some.inj h
    have e := C22_from3 w x y (h3 _ _ _ rfl)
    rcases hp with rfl | rfl | rfl | rfl
    · have := e.1; dsimp only; linarith
    · have := e.2.1; dsimp only; linarith
    · have := e.2.2; dsimp only; linarith
    · exact (C22_pointIsInside _ _ _).mp hi
  have t4 : ∀ w x y z : Vec3 ℝ, bb3Test4 w x y z = some b →
      ∀ p, p = w ∨ p = x ∨ p = y ∨ p = z → Spec.ed b.ball.center p < b.ball.radius + τ := by
    intro w x y z h p hp
    simp only [bb3Test4, Option.map_eq_some_iff] at h
    obtain ⟨s, hs, rfl⟩ := h
    by_cases hc : (x.sub w).inner ((y.sub w).outer (z.sub w)) = 0
    · rw [C22_from4_coplanar _ _ _ _ hc] at hs; simp at hs
    · obtain ⟨s', hs', e1, e2, e3, e4⟩ := C22_from4 _ _ _ _ hc
      obtain rfl : s' = s := Option.some.inj (hs'.symm.trans hs)
      rcases hp with rfl | rfl | rfl | rfl <;> dsimp only <;> linarith
  have four : ∀ v0 v1 v2 v3 : Vec3 ℝ, bb3Four τ v0 v1 v2 v3 = some b →
      ∀ p, p = v0 ∨ p = v1 ∨ p = v2 ∨ p = v3 → Spec.ed b.ball.center p < b.ball.radius + τ := by
    intro v0 v1 v2 v3 h p hp
    simp only [bb3Four, Option.orElse_eq_orElse, Option.orElse_eq_or, Option.or_eq_some_iff] at h
    rcases h with h | ⟨-, h | ⟨-, h | ⟨-, h | ⟨-, h | ⟨-, h | ⟨-, h | ⟨-, h | ⟨-, h | ⟨-, h⟩⟩⟩⟩⟩⟩⟩⟩⟩
    iterate 6 exact t2 _ _ _ _ h p (by tauto)
    iterate 3 exact t3 _ _ _ _ h p (by tauto)
    exact t4 _ _ _ _ h p (by tauto)
  match l, h with
  | [], _ => simp
  | [a], h =>
    obtain rfl := Option.some.inj h
    intro p hp
    obtain rfl := List.mem_singleton.mp hp
    simpa [Spec.ed, Spec.sqd] using hτ
  | [a, c], h =>
    obtain rfl := Option.some.inj h
    have e := C22_from2 a c
    intro p hp
    rcases List.mem_pair.mp hp with rfl | rfl
    · have := e.1; dsimp only; linarith
    · have := e.2.1; dsimp only; linarith
  | [a, c, e], h =>
    intro p hp
    refine four _ _ _ _ h p ?_
    simp only [List.mem_cons, List.not_mem_nil, or_false] at hp; tauto
  | [a, c, e, f], h =>
    intro p hp
    refine four _ _ _ _ h p ?_
    simp only [List.mem_cons, List.not_mem_nil, or_false] at hp; tauto
  | _ :: _ :: _ :: _ :: _ :: _, h => simp [bb3Direct] at h

/-! ### The recursive variants -/

/-- The recursive function computes the ball of Welzl's recursion, too; it meets the points in the
opposite order and hands the shell to the direct computation in the opposite order. -/
theorem C39_recursive {P R : Type*} (dim : ℕ) (direct : List P → Option R) (inside : R → P → Bool)
    (ps : List P) : ∀ sh : List P, BBall.recursive dim direct inside ps sh =
      Spec.welzl dim (fun l => direct l.reverse) inside ps sh.reverse := by
  induction ps with
  | nil => intro sh; simp [BBall.recursive, Spec.welzl]
  | cons p ps ih =>
    intro sh
    simp only [BBall.recursive, Spec.welzl, List.length_reverse, List.reverse_reverse, ih sh,
      ih (sh ++ [p]), List.reverse_append, List.reverse_cons, List.reverse_nil, List.nil_append,
      List.singleton_append]
    cases Spec.welzl dim (fun l => direct l.reverse) inside ps sh.reverse <;> rfl

/-- `zVec2DDataBoundingBallRecursive` always returns a disk. Its contact points are points of the set
on its circle, and no smaller disk contains the set. -/
theorem C39_recursive2D (τ : ℝ) (hτ : 0 < τ) (d : Data (Vec2 ℝ)) (hd : d.WF) (xs : List (Vec2 ℝ))
    (hx : d.Shows xs) (hne : xs ≠ []) : ∃ b, boundingBall2Recursive τ d = some b ∧
    b.num = b.vp.length ∧ b.num ≤ 3 ∧ (∀ p ∈ b.vp, p ∈ xs) ∧
    (∀ p ∈ b.vp, Spec.ed2 b.ball.center p = b.ball.radius) ∧
    (∀ (c : Vec2 ℝ) (r : ℝ), (∀ p ∈ xs, Spec.ed2 c p ≤ r) → b.ball.radius ≤ r) := by
  obtain rfl := C35_shows_unique d _ _ hx (C35_toAddrList d hd)
  rw [boundingBall2Recursive, C39_recursive]
  cases hw : Spec.welzl 3 (fun l => bb2Direct τ l.reverse)
      (fun b p => @decide (b.ball.pointIsInside p τ) (Classical.propDecidable _)) d.toAddrList [].reverse with
  | none =>
    exact absurd hw (welzl_some (k := d.toAddrList.length + 3)
      (fun l _ h => direct2_some τ l.reverse (by simpa using h)) _ _ (by simp) (by simp))
  | some b =>
    obtain ⟨l, hl, hm, hdir⟩ := welzl_direct _ _ _ (Nat.zero_le _) hw
    obtain ⟨h1, h2, h3, h4, h5, h6⟩ := direct2 hτ hdir
    have h7 : ∀ p ∈ b.vp, p ∈ d.toAddrList := fun p hp => by simpa using hm p (by simpa using h3 p hp)
    refine ⟨b, rfl, h1, h2, h7, h5, fun c r hc => ?_⟩
    obtain ⟨x, hxm⟩ := List.exists_mem_of_ne_nil _ hne
    exact h6 c r (le_trans (Real.sqrt_nonneg _) (hc x hxm)) fun p hp => hc p (h7 p hp)

/-- Without contact points the disk is the one of no points. -/
theorem C39_recursive2D_none (τ : ℝ) (hτ : 0 < τ) (d : Data (Vec2 ℝ)) (b : Ball2)
    (h : boundingBall2Recursive τ d = some b) (h0 : b.num = 0) : b.ball.radius = -1 := by
  rw [boundingBall2Recursive, C39_recursive] at h
  obtain ⟨l, hl, hm, hdir⟩ := welzl_direct _ _ _ (Nat.zero_le _) h
  obtain ⟨-, -, -, h4, -, -⟩ := direct2 hτ hdir
  have := h4 h0
  obtain rfl : l = [] := by simpa using this
  obtain rfl := Option.some.inj hdir
  rfl

/-- `zVec3DDataBoundingBallRecursive`: the contact points are points of the set; with at most two of
them, no smaller ball contains the set. -/
theorem C39_recursive3D (τ : ℝ) (d : Data (Vec3 ℝ)) (hd : d.WF) (xs : List (Vec3 ℝ))
    (hx : d.Shows xs) (hne : xs ≠ []) (b : Ball3) (h : boundingBall3Recursive τ d = some b) :
    b.num = b.vp.length ∧ b.num ≤ 4 ∧ (∀ p ∈ b.vp, p ∈ xs) ∧
    (b.num ≤ 2 → ∀ (c : Vec3 ℝ) (r : ℝ), (∀ p ∈ xs, Spec.ed c p ≤ r) → b.ball.radius ≤ r) := by
  obtain rfl := C35_shows_unique d _ _ hx (C35_toAddrList d hd)
  rw [boundingBall3Recursive, C39_recursive] at h
  obtain ⟨l, hl, hm, hdir⟩ := welzl_direct _ _ _ (Nat.zero_le _) h
  obtain ⟨h1, h2, h3, h0, h4, h5, h6, h7⟩ := direct_vp hdir
  have h8 : ∀ p ∈ b.vp, p ∈ d.toAddrList := fun p hp => by simpa using hm p (by simpa using h3 p hp)
  refine ⟨h1, h2, h8, fun hn c r hc => ?_⟩
  obtain ⟨x, hxm⟩ := List.exists_mem_of_ne_nil _ hne
  have hr : 0 ≤ r := le_trans (Real.sqrt_nonneg _) (hc x hxm)
  have : b.num = 0 ∨ b.num = 1 ∨ b.num = 2 := by omega
  rcases this with e | e | e
  · have := h0 e
    obtain rfl : l = [] := by simpa using this
    obtain rfl := Option.some.inj hdir
    show (-1 : ℝ) ≤ r
    linarith
  · obtain ⟨p, hv, hb⟩ := h4 e
    rw [hb]; exact hr
  · obtain ⟨p, q, hv, hb⟩ := h5 e
    have e3 := (C22_from2 p q).2.2
    rw [← hb] at e3
    have hp1 := hc p (h8 p (by rw [hv]; simp))
    have hq1 := hc q (h8 q (by rw [hv]; simp))
    have := ed_triangle' p c q
    linarith

/-- The disk of `zVec2DDataBoundingBallRecursive` need not contain the data: of the points (0, -6), (-4, 2), (-2, -4), (0, 4),
(10, 0), fetched in this order, the last one is at twice the radius from the center, for every tolerance up to 0.01. The
recursion asks for the smallest disk of the points already known to be on the circle, where the algorithm needs the smallest
disk with these points on its circle. -/
theorem C39_recursive2D_wrong (τ : ℝ) (τ0 : 0 < τ) (hτ : τ ≤ 1/100) : ∃ b,
    boundingBall2Recursive τ (Data.assignList [⟨0, -6⟩, ⟨-4, 2⟩, ⟨-2, -4⟩, ⟨0, 4⟩, ⟨10, 0⟩]) = some b ∧
    b.ball.center = ⟨0, -1⟩ ∧ b.ball.radius = 5 ∧ 2 * b.ball.radius < Spec.ed2 b.ball.center ⟨10, 0⟩ := by
  obtain ⟨b, h1, -, h2, h3⟩ := BallEval.bad5 τ0 hτ
  have h3 : b.ball.radius = 5 := by
    rw [h3, show (25 : ℝ) = 5 ^ 2 by norm_num]; exact Real.sqrt_sq (by norm_num)
  refine ⟨b, h1, h2, h3, ?_⟩
  rw [h2, h3, Spec.ed2]
  apply Real.lt_sqrt_of_sq_lt
  norm_num [Spec.sqd2]

open Classical in
/-- The hypotheses are met: two points at distance 2 give the ball around their midpoint, at once. -/
example (junk : Ball3) : ∃ fuel, boundingBall3 (1/10) fuel
    (Data.assignList [⟨0, 0, 0⟩, ⟨2, 0, 0⟩]) junk =
    .ok ⟨⟨⟨1, 0, 0⟩, 1⟩, 2, [⟨0, 0, 0⟩, ⟨2, 0, 0⟩]⟩ false := by
  have hl : (Data.assignList [(⟨0, 0, 0⟩ : Vec3 ℝ), ⟨2, 0, 0⟩]).toAddrList = [⟨0, 0, 0⟩, ⟨2, 0, 0⟩] := rfl
  have s4 : Real.sqrt 4 = 2 := by
    rw [show (4 : ℝ) = 2 ^ 2 by norm_num]; exact Real.sqrt_sq (by norm_num)
  have f2 : Sphere3.from2 ⟨0, 0, 0⟩ ⟨2, 0, 0⟩ = (⟨⟨1, 0, 0⟩, 1⟩ : Sphere3 ℝ) := by
    simp [Sphere3.from2, dist_eq_ed, Spec.ed, Spec.sqd, zeo]
  obtain ⟨N, hN⟩ := C39_first_try 4 (bb3Direct (1/10))
    (fun b p => decide (b.ball.pointIsInside p (1/10))) [⟨0, 0, 0⟩, ⟨2, 0, 0⟩] junk
    ⟨⟨⟨1, 0, 0⟩, 1⟩, 2, [⟨0, 0, 0⟩, ⟨2, 0, 0⟩]⟩
    (by
      simp only [List.reverse_cons, List.reverse_nil, List.nil_append, List.cons_append, Spec.welzl,
        bb3Direct, C22_pointIsInside, Spec.ed, Spec.sqd, Vec3.zero, f2]
      norm_num [s4])
    (by
      intro p hp
      simp only [List.mem_cons, List.not_mem_nil, or_false] at hp
      rcases hp with rfl | rfl <;>
        norm_num [C22_pointIsInside, Spec.ed, Spec.sqd])
  exact ⟨N, by rw [boundingBall3, hl]; exact hN N le_rfl⟩

end Zeo

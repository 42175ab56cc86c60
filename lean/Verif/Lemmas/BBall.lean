import Verif.Model.BBall

/-! # The action stack of the bounding ball carries out Welzl's recursion -/

namespace Zeo

/-- Welzl's recursion: the ball of the points `ps` (top of the stack first) with the points of `shell`
on its shell. `none`: the direct computation failed somewhere. -/
def Spec.welzl {P R : Type*} (dim : ℕ) (direct : List P → Option R) (inside : R → P → Bool) :
    List P → List P → Option R
  | [], shell => direct shell
  | p :: ps, shell =>
    if shell.length = dim then direct shell
    else
      match Spec.welzl dim direct inside ps shell with
      | none => none
      | some r => if inside r p = true then some r else Spec.welzl dim direct inside ps (p :: shell)

namespace BBall
variable {P R : Type*} {dim : ℕ} {direct : List P → Option R} {inside : R → P → Bool}

/-- The loop started in `s` ends with `o`. -/
def Ends (dim : ℕ) (direct : List P → Option R) (inside : R → P → Bool) (s : St P R)
    (o : Out P R) : Prop := ∃ n, loop dim direct inside n s = some o

theorem Ends.next {s s' : St P R} {o} (h : step dim direct inside s = .next s')
    (h' : Ends dim direct inside s' o) : Ends dim direct inside s o := by
  obtain ⟨n, hn⟩ := h'
  exact ⟨n + 1, by simp only [loop, h, hn]⟩

theorem Ends.exit {s s' : St P R} (h : step dim direct inside s = .exit s') :
    Ends dim direct inside s (.exit s') := ⟨1, by simp only [loop, h]⟩

theorem Ends.crash {s : St P R} (h : step dim direct inside s = .crash) :
    Ends dim direct inside s .crash := ⟨1, by simp only [loop, h]⟩

theorem Ends.same {s t : St P R} {o} (h : step dim direct inside s = step dim direct inside t)
    (h' : Ends dim direct inside t o) : Ends dim direct inside s o := by
  obtain ⟨n, hn⟩ := h'
  cases n with
  | zero => simp [loop] at hn
  | succ n => exact ⟨n + 1, by simpa only [loop, h] using hn⟩

/-- Where the computation goes when the point on top of the save stack is taken back. -/
def Back (dim : ℕ) (direct : List P → Option R) (inside : R → P → Bool) (s : St P R)
    (o : Out P R) : Prop :=
  match s.ptsSave, s.actsSave with
  | [], _ => o = .exit s
  | q :: ps, a :: as => Ends dim direct inside
      { s with pts := q :: s.pts, ptsSave := ps, acts := a :: s.acts, actsSave := as } o
  | _ :: _, [] => False

theorem Back.ends {s t : St P R} {o} (h : step dim direct inside s = revertPoint t .next)
    (hb : Back dim direct inside t o) : Ends dim direct inside s o := by
  obtain ⟨pts, ptsSave, shell, free, acts, actsSave, res⟩ := t
  unfold Back at hb
  unfold revertPoint at h
  cases ptsSave with
  | nil => dsimp only at hb h; subst hb; exact Ends.exit h
  | cons q ps =>
    cases actsSave with
    | nil => exact absurd hb (by simp)
    | cons a as => dsimp only at hb h; exact Ends.next h hb

/-- `step2` is `step` once no REVERT is on top, and does nothing when one is and the shell is not
full. -/
theorem Back.ends2 {s t : St P R} {o} (hne : t.pts ≠ []) (hs : t.shell.length ≠ dim)
    (h : step dim direct inside s = revertPoint t (step2 dim direct inside))
    (hb : Back dim direct inside t o) : Ends dim direct inside s o := by
  obtain ⟨pts, ptsSave, shell, free, acts, actsSave, res⟩ := t
  unfold Back at hb
  unfold revertPoint at h
  cases ptsSave with
  | nil => dsimp only at hb h; subst hb; exact Ends.exit h
  | cons q ps =>
    cases actsSave with
    | nil => exact absurd hb (by simp)
    | cons a as =>
      dsimp only at hb h hne hs
      by_cases ha : a = .revert
      · refine Ends.next ?_ hb
        rw [h]
        simp only [step2, ha, List.head?_cons, reduceCtorEq, false_or, if_neg hs]
      · refine Ends.same ?_ hb
        rw [h]
        conv_rhs => rw [step]
        simp only [List.head?_cons, Option.some.injEq, ha, if_false]

/-- Main lemma: a call with the points `ps` still to be treated and the shell `sh` returns with the
ball of the recursion, all stacks being restored. -/
theorem main (ps : List P) : ∀ (sh pSave : List P) (aSave : List Act) (junk : R),
    sh.length ≤ dim →
    let s : R → St P R := fun r =>
      ⟨ps, pSave, sh, dim - sh.length, List.replicate ps.length .save, aSave, r⟩
    (∀ r, Spec.welzl dim direct inside ps sh = some r → ∀ o, Back dim direct inside (s r) o →
      Ends dim direct inside (s junk) o) ∧
    (Spec.welzl dim direct inside ps sh = none → Ends dim direct inside (s junk) .crash) := by
  induction ps with
  | nil =>
    intro sh pSave aSave junk hsh s
    have hst : step dim direct inside (s junk) = match direct sh with
        | none => .crash
        | some r => revertPoint (s r) .next := by
      simp only [s, step, step2, List.length_nil, List.replicate_zero, List.head?_nil, true_or,
        if_true, reduceCtorEq, if_false]
      cases direct sh <;> rfl
    constructor
    · intro r hr o ho
      simp only [Spec.welzl] at hr
      rw [hr] at hst
      exact ho.ends hst
    · intro hr
      simp only [Spec.welzl] at hr
      rw [hr] at hst
      exact Ends.crash hst
  | cons p ps ih =>
    intro sh pSave aSave junk hsh s
    by_cases hfull : sh.length = dim
    · have hst : step dim direct inside (s junk) = match direct sh with
          | none => .crash
          | some r => revertPoint (s r) .next := by
        simp only [s, step, step2, hfull, List.length_cons, List.replicate_succ, List.head?_cons,
          or_true, if_true, reduceCtorEq, if_false, Option.some.injEq]
        cases direct sh <;> rfl
      constructor
      · intro r hr o ho
        simp only [Spec.welzl, hfull, if_true] at hr
        rw [hr] at hst
        exact ho.ends hst
      · intro hr
        simp only [Spec.welzl, hfull, if_true] at hr
        rw [hr] at hst
        exact Ends.crash hst
    · have hlt : sh.length < dim := lt_of_le_of_ne hsh hfull
      -- the top point is saved with CHECK
      have hsave : step dim direct inside (s junk) = .next
          ⟨ps, p :: pSave, sh, dim - sh.length, List.replicate ps.length .save, .check :: aSave,
            junk⟩ := by
        simp [s, step, step2, hfull, List.replicate_succ, savePoint]
      obtain ⟨ih1, ih2⟩ := ih sh (p :: pSave) (.check :: aSave) junk hsh
      -- the state in which the check is done
      have hcheck : ∀ r, step dim direct inside
          ⟨p :: ps, pSave, sh, dim - sh.length, .check :: List.replicate ps.length .save, aSave, r⟩ =
          if inside r p = true then revertPoint (s r) .next
          else .next ⟨ps, p :: pSave, p :: sh, dim - (p :: sh).length,
            List.replicate ps.length .save, .revert :: aSave, r⟩ := by
        intro r
        have h0 : dim - sh.length ≠ 0 := by omega
        have h1 : dim - sh.length - 1 = dim - (sh.length + 1) := by omega
        simp [s, step, step2, hfull, List.replicate_succ, savePoint, setAction, h0, h1]
      obtain ⟨jh1, jh2⟩ : _ ∧ _ := ih (p :: sh) (p :: pSave) (.revert :: aSave) junk (by simpa using hlt)
      have jh1' := fun j => (ih (p :: sh) (p :: pSave) (.revert :: aSave) j (by simpa using hlt)).1
      have jh2' := fun j => (ih (p :: sh) (p :: pSave) (.revert :: aSave) j (by simpa using hlt)).2
      -- the state in which the shell is reverted
      have hrev : ∀ r, step dim direct inside
          ⟨p :: ps, pSave, p :: sh, dim - (p :: sh).length, .revert :: List.replicate ps.length .save,
            aSave, r⟩ = revertPoint (s r) (step2 dim direct inside) := by
        intro r
        have h1 : dim - (sh.length + 1) + 1 = dim - sh.length := by omega
        simp [s, step, List.replicate_succ, setAction, h1]
      simp only [Spec.welzl, if_neg hfull]
      cases hw : Spec.welzl dim direct inside ps sh with
      | none => exact ⟨fun r hr => by simp at hr, fun _ => Ends.next hsave (ih2 hw)⟩
      | some r1 =>
        dsimp only
        by_cases hin : inside r1 p = true
        · simp only [hin, if_true, Option.some.injEq, reduceCtorEq, false_implies, and_true]
          rintro r rfl o ho
          refine Ends.next hsave (ih1 r1 hw o ?_)
          have hst := hcheck r1
          rw [if_pos hin] at hst
          exact ho.ends hst
        · simp only [hin, if_false, Bool.false_eq_true]
          have hst := hcheck r1
          rw [if_neg hin] at hst
          constructor
          · intro r hr o ho
            refine Ends.next hsave (ih1 r1 hw o ?_)
            refine Ends.next hst (jh1' r1 r hr o ?_)
            exact ho.ends2 (by simp [s]) (by simpa [s] using hfull) (hrev r)
          · intro hr
            refine Ends.next hsave (ih1 r1 hw .crash ?_)
            exact Ends.next hst (jh2' r1 hr)

theorem loop_init (ps : List P) (junk : R) :
    (∀ r, Spec.welzl dim direct inside ps [] = some r → Ends dim direct inside
      ⟨ps, [], [], dim, List.replicate ps.length .save, [], junk⟩
      (.exit ⟨ps, [], [], dim, List.replicate ps.length .save, [], r⟩)) ∧
    (Spec.welzl dim direct inside ps [] = none → Ends dim direct inside
      ⟨ps, [], [], dim, List.replicate ps.length .save, [], junk⟩ .crash) := by
  obtain ⟨h1, h2⟩ := main (dim := dim) (direct := direct) (inside := inside) ps [] [] [] junk
    (Nat.zero_le _)
  exact ⟨fun r hr => h1 r hr _ rfl, h2⟩

theorem loop_mono {n m : ℕ} {s : St P R} {o} (h : loop dim direct inside n s = some o) (hm : n ≤ m) :
    loop dim direct inside m s = some o := by
  induction n generalizing m s with
  | zero => simp [loop] at h
  | succ n ih =>
    obtain ⟨k, rfl⟩ : ∃ k, m = k + 1 := ⟨m - 1, by omega⟩
    simp only [loop] at h ⊢
    cases hs : step dim direct inside s with
    | next s' => rw [hs] at h; exact ih h (by omega)
    | exit s' => rw [hs] at h; exact h
    | crash => rw [hs] at h; exact h

theorem findOutlier_none {r : R} {ps : List P} (h : findOutlier inside r ps = none) :
    ∀ p ∈ ps, inside r p = true := by
  induction ps with
  | nil => simp
  | cons p ps ih =>
    simp only [findOutlier] at h
    cases hf : findOutlier inside r ps with
    | some x => rw [hf] at h; simp at h
    | none =>
      rw [hf] at h
      by_cases hp : inside r p = true
      · simpa [hp] using ih hf
      · simp [hp] at h

theorem findOutlier_some {r : R} {ps a b : List P} {q : P}
    (h : findOutlier inside r ps = some (a, q, b)) :
    ps = a ++ q :: b ∧ inside r q = false ∧ ∀ p ∈ b, inside r p = true := by
  induction ps generalizing a with
  | nil => simp [findOutlier] at h
  | cons p ps ih =>
    simp only [findOutlier] at h
    cases hf : findOutlier inside r ps with
    | some x =>
      obtain ⟨a', q', b'⟩ := x
      rw [hf] at h
      simp only [Option.some.injEq, Prod.mk.injEq] at h
      obtain ⟨rfl, rfl, rfl⟩ := h
      obtain ⟨rfl, h2⟩ := ih hf
      exact ⟨rfl, h2⟩
    | none =>
      rw [hf] at h
      by_cases hp : inside r p = true
      · simp [hp] at h
      · simp only [hp, if_false, Option.some.injEq, Prod.mk.injEq, Bool.false_eq_true] at h
        obtain ⟨rfl, rfl, rfl⟩ := h
        exact ⟨rfl, by simpa using hp, findOutlier_none hf⟩

end BBall
end Zeo

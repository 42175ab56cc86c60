import Verif.Model.Misc
import Mathlib.Tactic.IntervalCases
import Mathlib.Tactic.Linarith

/-! # C48: axis and direction names -/

namespace Zeo

/-- The documented correspondence between axis identifiers and names, written out. -/
inductive Spec.AxisNamed : Int → String → Prop
  | x : AxisNamed 0 "x" | y : AxisNamed 1 "y" | z : AxisNamed 2 "z"
  | tilt : AxisNamed 3 "tilt" | elev : AxisNamed 4 "elev" | azim : AxisNamed 5 "azim"

/-- The documented correspondence between direction identifiers and names, written out. -/
inductive Spec.DirNamed : Int → String → Prop
  | none : DirNamed 0 "none" | right : DirNamed 1 "right" | left : DirNamed 2 "left"
  | forward : DirNamed 3 "forward" | backward : DirNamed 4 "backward" | up : DirNamed 5 "up"
  | down : DirNamed 6 "down" | cw : DirNamed 7 "cw" | ccw : DirNamed 8 "ccw"

/-- The documented opposite directions, written out. -/
inductive Spec.Opposite : Int → Int → Prop
  | rl : Opposite 1 2 | lr : Opposite 2 1 | fb : Opposite 3 4 | bf : Opposite 4 3
  | ud : Opposite 5 6 | du : Opposite 6 5 | cc : Opposite 7 8 | cc' : Opposite 8 7

private theorem axisNamed_iff (a : Int) (s : String) : Spec.AxisNamed a s ↔
    (a = 0 ∧ s = "x") ∨ (a = 1 ∧ s = "y") ∨ (a = 2 ∧ s = "z") ∨ (a = 3 ∧ s = "tilt") ∨
    (a = 4 ∧ s = "elev") ∨ (a = 5 ∧ s = "azim") := by
  constructor
  · intro h; cases h <;> simp
  · rintro (⟨rfl, rfl⟩ | ⟨rfl, rfl⟩ | ⟨rfl, rfl⟩ | ⟨rfl, rfl⟩ | ⟨rfl, rfl⟩ | ⟨rfl, rfl⟩) <;> constructor

private theorem dirNamed_iff (a : Int) (s : String) : Spec.DirNamed a s ↔
    (a = 0 ∧ s = "none") ∨ (a = 1 ∧ s = "right") ∨ (a = 2 ∧ s = "left") ∨ (a = 3 ∧ s = "forward") ∨
    (a = 4 ∧ s = "backward") ∨ (a = 5 ∧ s = "up") ∨ (a = 6 ∧ s = "down") ∨ (a = 7 ∧ s = "cw") ∨
    (a = 8 ∧ s = "ccw") := by
  constructor
  · intro h; cases h <;> simp
  · rintro (⟨rfl, rfl⟩ | ⟨rfl, rfl⟩ | ⟨rfl, rfl⟩ | ⟨rfl, rfl⟩ | ⟨rfl, rfl⟩ | ⟨rfl, rfl⟩ | ⟨rfl, rfl⟩ |
      ⟨rfl, rfl⟩ | ⟨rfl, rfl⟩) <;> constructor

/-- `zAxisStr` gives exactly the documented name, and NULL for every other integer. -/
theorem C48_axisStr (a : Int) (s : String) : axisStr a = some s ↔ Spec.AxisNamed a s := by
  constructor
  · intro h
    by_cases ha : a < 0 ∨ a > 5
    · simp [axisStr, ha] at h
    · push Not at ha
      obtain ⟨h0, h5⟩ := ha
      interval_cases a <;> simp [axisStr, axisName] at h <;> subst h <;> constructor
  · intro h; cases h <;> rfl

/-- `zAxisFromStr` recognizes exactly the documented names; every other string, and NULL, gives
`zAxisInvalid` = -1. -/
theorem C48_axisFromStr (o : Option String) (a : Int) :
    axisFromStr o = a ↔ (∃ s, o = some s ∧ Spec.AxisNamed a s) ∨
      (a = -1 ∧ ∀ s b, o = some s → ¬ Spec.AxisNamed b s) := by
  cases o with
  | none => simp [axisFromStr, eq_comm]
  | some s =>
    simp only [axisFromStr, scanName, axisName, Option.some.injEq, exists_eq_left', forall_eq']
    simp only [axisNamed_iff]
    split_ifs with h1 h2 h3 h4 h5 h6
    all_goals first
      | (subst s; simp [eq_comm]; done)
      | (simp [*, eq_comm]; done)
      | (simp [*, eq_comm]; rintro - t b rfl; simp [*])

/-- Round trip over the six axes. -/
theorem C48_axis_roundtrip (a : Int) (h : 0 ≤ a ∧ a ≤ 5) : axisFromStr (axisStr a) = a := by
  obtain ⟨h0, h5⟩ := h
  interval_cases a <;> rfl

/-- Anything that is not one of the six axes has no name and reads back as -1. -/
theorem C48_axis_invalid (a : Int) (h : a < 0 ∨ 5 < a) :
    axisStr a = none ∧ axisFromStr (axisStr a) = -1 := by
  have : axisStr a = none := by simp [axisStr, h]
  exact ⟨this, by rw [this]; rfl⟩

/-- `zDirStr` gives exactly the documented name, and NULL for every other integer. -/
theorem C48_dirStr (d : Int) (s : String) : dirStr d = some s ↔ Spec.DirNamed d s := by
  constructor
  · intro h
    by_cases ha : d < 0 ∨ d > 8
    · simp [dirStr, ha] at h
    · push Not at ha
      obtain ⟨h0, h8⟩ := ha
      interval_cases d <;> simp [dirStr, dirName] at h <;> subst h <;> constructor
  · intro h; cases h <;> rfl

/-- `zDirFromStr` recognizes the documented names and gives `ZEO_DIR_NONE` for every other string. -/
theorem C48_dirFromStr (s : String) :
    (∀ d, Spec.DirNamed d s → dirFromStr (some s) = d) ∧
    ((∀ d, ¬ Spec.DirNamed d s) → dirFromStr (some s) = 0) ∧ dirFromStr none = 0 := by
  refine ⟨fun d h => by cases h <;> rfl, fun h => ?_, rfl⟩
  simp only [dirFromStr, scanName, dirName]
  split_ifs with h1 h2 h3 h4 h5 h6 h7 h8 h9 <;> first
    | rfl | (subst s; exact absurd (by constructor) (h _))

/-- Round trip over the nine directions. -/
theorem C48_dir_roundtrip (d : Int) (h : 0 ≤ d ∧ d ≤ 8) : dirFromStr (dirStr d) = d := by
  obtain ⟨h0, h5⟩ := h
  interval_cases d <;> rfl

/-- Reversal maps every direction to its documented opposite, hence is a fixed-point-free
involution on the eight proper directions, and fixes `ZEO_DIR_NONE`. -/
theorem C48_dirRev :
    (∀ d d', Spec.Opposite d d' → dirRev d = d') ∧ dirRev 0 = 0 ∧
    (∀ d, 1 ≤ d → d ≤ 8 → dirRev (dirRev d) = d ∧ dirRev d ≠ d ∧ 1 ≤ dirRev d ∧ dirRev d ≤ 8) := by
  refine ⟨fun d d' h => by cases h <;> rfl, rfl, fun d h1 h8 => ?_⟩
  interval_cases d <;> decide

/-- Satisfiability: a proper direction, an axis, and a name that is neither. -/
example : (1 ≤ (3:Int) ∧ (3:Int) ≤ 8) ∧ Spec.AxisNamed 4 "elev" ∧ ∀ d, ¬ Spec.DirNamed d "sideways" :=
  ⟨by decide, .elev, fun d h => by simp [dirNamed_iff] at h⟩

end Zeo

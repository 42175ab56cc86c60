import Verif.Model.BV
import Verif.Lemmas.Data
import Verif.Lemmas.Rot
import Mathlib.Tactic.FinCases

/-! # C37: the axis-aligned bounding box of a point set is the tight one -/

namespace Zeo
variable {K : Type*} [Field K] [LinearOrder K] [IsStrictOrderedRing K]

/-- The point is in the closed box. -/
def Spec.InBox (b : AABox3 K) (p : Vec3 K) : Prop :=
  b.min.x ≤ p.x ∧ p.x ≤ b.max.x ∧ b.min.y ≤ p.y ∧ p.y ≤ b.max.y ∧ b.min.z ≤ p.z ∧ p.z ≤ b.max.z
/-- The point is in the closed rectangle. -/
def Spec.InBox2 (b : AABox2 K) (p : Vec2 K) : Prop :=
  b.min.x ≤ p.x ∧ p.x ≤ b.max.x ∧ b.min.y ≤ p.y ∧ p.y ≤ b.max.y

/-- The six witnesses are points of the set lying on the respective faces. -/
def Spec.Witnesses (pts : List (Vec3 K)) (b : AABox3 K) (w : Fin 6 → Vec3 K) : Prop :=
  (∀ j, w j ∈ pts) ∧ (w 0).x = b.max.x ∧ (w 1).y = b.max.y ∧ (w 2).z = b.max.z ∧
    (w 3).x = b.min.x ∧ (w 4).y = b.min.y ∧ (w 5).z = b.min.z
/-- The four witnesses are points of the set lying on the respective sides. -/
def Spec.Witnesses2 (pts : List (Vec2 K)) (b : AABox2 K) (w : Fin 4 → Vec2 K) : Prop :=
  (∀ j, w j ∈ pts) ∧ (w 0).x = b.max.x ∧ (w 1).y = b.max.y ∧ (w 2).x = b.min.x ∧ (w 3).y = b.min.y

private def Ok (pts : List (Vec3 K)) (s : AABox3 K × (Fin 6 → Vec3 K)) : Prop :=
  (∀ p ∈ pts, Spec.InBox s.1 p) ∧ Spec.Witnesses pts s.1 s.2

/-- One coordinate of the invariant. -/
private def AxOk (pts : List (Vec3 K)) (s : AABox3 K × (Fin 6 → Vec3 K)) (i : Fin 3) : Prop :=
  (∀ p ∈ pts, s.1.min.e i ≤ p.e i ∧ p.e i ≤ s.1.max.e i) ∧
  s.2 ⟨i.1, by omega⟩ ∈ pts ∧ (s.2 ⟨i.1, by omega⟩).e i = s.1.max.e i ∧
  s.2 ⟨i.1 + 3, by omega⟩ ∈ pts ∧ (s.2 ⟨i.1 + 3, by omega⟩).e i = s.1.min.e i

private theorem e_setE (v : Vec3 K) (i j : Fin 3) (a : K) : (v.setE i a).e j = if j = i then a else v.e j := by
  fin_cases i <;> fin_cases j <;> rfl

private theorem ax_same {pts : List (Vec3 K)} {s : AABox3 K × (Fin 6 → Vec3 K)} {i : Fin 3} (h : AxOk pts s i) (p : Vec3 K) :
    AxOk (pts ++ [p]) (AABox3.testInc p s i) i := by
  obtain ⟨hb, w1, w2, w3, w4⟩ := h
  have le : s.1.min.e i ≤ s.1.max.e i := (hb _ w1).1.trans (hb _ w1).2
  have hne : (⟨i.1 + 3, by omega⟩ : Fin 6) ≠ ⟨i.1, by omega⟩ := by simp [Fin.ext_iff]
  unfold AABox3.testInc
  split_ifs with h1 h2
  · refine ⟨?_, ?_, ?_, ?_, ?_⟩
    · intro q hq
      simp only [e_setE, if_true]
      rcases List.mem_append.1 hq with hq | hq
      · exact ⟨(hb q hq).1, by linarith [(hb q hq).2]⟩
      · have : q = p := by simpa using hq
        subst this; exact ⟨by linarith, le_rfl⟩
    · simp
    · simp [e_setE]
    · simp [Function.update_of_ne hne, w3]
    · dsimp only; rw [Function.update_of_ne hne]; exact w4
  · refine ⟨?_, ?_, ?_, ?_, ?_⟩
    · intro q hq
      simp only [e_setE, if_true]
      rcases List.mem_append.1 hq with hq | hq
      · exact ⟨by linarith [(hb q hq).1], (hb q hq).2⟩
      · have : q = p := by simpa using hq
        subst this; exact ⟨le_rfl, by linarith⟩
    · simp [Function.update_of_ne hne.symm, w1]
    · dsimp only; rw [Function.update_of_ne hne.symm]; exact w2
    · simp
    · simp [e_setE]
  · refine ⟨?_, List.mem_append_left _ w1, w2, List.mem_append_left _ w3, w4⟩
    intro q hq
    rcases List.mem_append.1 hq with hq | hq
    · exact hb q hq
    · have : q = p := by simpa using hq
      subst this; exact ⟨not_lt.1 h2, not_lt.1 h1⟩

private theorem ax_other {pts : List (Vec3 K)} {s : AABox3 K × (Fin 6 → Vec3 K)} {i j : Fin 3} (hij : j ≠ i)
    (h : AxOk pts s j) (p : Vec3 K) : AxOk pts (AABox3.testInc p s i) j := by
  have hv : j.1 ≠ i.1 := fun hh => hij (Fin.ext hh)
  have n1 : (⟨j.1, by omega⟩ : Fin 6) ≠ ⟨i.1, by omega⟩ := by simp only [ne_eq, Fin.mk.injEq]; omega
  have n2 : (⟨j.1 + 3, by omega⟩ : Fin 6) ≠ ⟨i.1, by omega⟩ := by simp only [ne_eq, Fin.mk.injEq]; omega
  have n3 : (⟨j.1, by omega⟩ : Fin 6) ≠ ⟨i.1 + 3, by omega⟩ := by simp only [ne_eq, Fin.mk.injEq]; omega
  have n4 : (⟨j.1 + 3, by omega⟩ : Fin 6) ≠ ⟨i.1 + 3, by omega⟩ := by simp only [ne_eq, Fin.mk.injEq]; omega
  unfold AABox3.testInc
  unfold AxOk at h ⊢
  split_ifs with h1 h2
  · dsimp only
    rw [Function.update_of_ne n1, Function.update_of_ne n2]
    simp only [e_setE, if_neg hij]
    exact h
  · dsimp only
    rw [Function.update_of_ne n3, Function.update_of_ne n4]
    simp only [e_setE, if_neg hij]
    exact h
  · exact h

private theorem ok_iff {pts : List (Vec3 K)} {s : AABox3 K × (Fin 6 → Vec3 K)} : Ok pts s ↔ ∀ i, AxOk pts s i := by
  constructor
  · rintro ⟨hb, hm, h0, h1, h2, h3, h4, h5⟩ i
    fin_cases i
    · exact ⟨fun p hp => ⟨(hb p hp).1, (hb p hp).2.1⟩, hm 0, h0, hm 3, h3⟩
    · exact ⟨fun p hp => ⟨(hb p hp).2.2.1, (hb p hp).2.2.2.1⟩, hm 1, h1, hm 4, h4⟩
    · exact ⟨fun p hp => ⟨(hb p hp).2.2.2.2.1, (hb p hp).2.2.2.2.2⟩, hm 2, h2, hm 5, h5⟩
  · intro h
    obtain ⟨b0, m0, e0, m3, e3⟩ := h 0
    obtain ⟨b1, m1, e1, m4, e4⟩ := h 1
    obtain ⟨b2, m2, e2, m5, e5⟩ := h 2
    refine ⟨fun p hp => ⟨(b0 p hp).1, (b0 p hp).2, (b1 p hp).1, (b1 p hp).2, (b2 p hp).1, (b2 p hp).2⟩, ?_, e0, e1, e2, e3, e4, e5⟩
    intro j
    fin_cases j
    · exact m0
    · exact m1
    · exact m2
    · exact m3
    · exact m4
    · exact m5

private theorem ok_inc {pts : List (Vec3 K)} {s : AABox3 K × (Fin 6 → Vec3 K)} (h : Ok pts s) (p : Vec3 K) :
    Ok (pts ++ [p]) (AABox3.inc s p) := by
  rw [ok_iff] at h ⊢
  unfold AABox3.inc
  intro i
  fin_cases i
  · exact ax_other (by decide) (ax_other (by decide) (ax_same (h 0) p) p) p
  · exact ax_other (by decide) (ax_same (ax_other (by decide) (h 1) p) p) p
  · exact ax_same (ax_other (by decide) (ax_other (by decide) (h 2) p) p) p

private theorem ok_foldl : ∀ (xs pts : List (Vec3 K)) (s : AABox3 K × (Fin 6 → Vec3 K)), Ok pts s →
    Ok (pts ++ xs) (xs.foldl AABox3.inc s)
  | [], pts, s, h => by simpa using h
  | x :: xs, pts, s, h => by
    have := ok_foldl xs (pts ++ [x]) _ (ok_inc h x)
    simpa using this

private theorem ok_init (v : Vec3 K) : Ok [v] (⟨v, v⟩, fun _ => v) := by
  refine ⟨?_, ?_⟩
  · intro p hp
    have : p = v := by simpa using hp
    subst this
    exact ⟨le_rfl, le_rfl, le_rfl, le_rfl, le_rfl, le_rfl⟩
  · exact ⟨by simp, rfl, rfl, rfl, rfl, rfl, rfl⟩

/-- `zVec3DDataAABB` on any non-empty point set: every point is in the box, and the six witnesses are
points of the set on the six faces. -/
theorem C37_aabb {d : Data (Vec3 K)} (hd : d.WF) (hne : d.contents ≠ []) :
    ∃ b w, aabb3 d = some (b, w) ∧ (∀ p ∈ d.contents, Spec.InBox b p) ∧ Spec.Witnesses d.contents b w := by
  unfold aabb3
  rw [if_neg (by rw [Data.isEmpty_iff hd]; exact hne)]
  obtain ⟨r1, r2, r3⟩ := hd.rewind
  obtain ⟨f1, f2, f3, f4, -⟩ := r1.fetch
  obtain ⟨x, xs, hx⟩ := List.exists_cons_of_ne_nil hne
  rw [r2, r3, hx] at f3 f4
  rw [r2, hx] at f2
  rcases hf : d.rewind.fetch with ⟨o, d'⟩
  rw [hf] at f1 f2 f3 f4
  dsimp only at f1 f2 f3 f4
  have f3' : o = some x := by rw [f3]; simp
  subst f3'
  have hsz : d.size = (x :: xs).length := by rw [Data.size_eq hd, hx]
  obtain ⟨g1, -⟩ := f1.loop AABox3.inc (d.size + 1) (⟨x, x⟩, fun _ => x) (by rw [f2, hsz]; omega)
  dsimp only
  rw [g1, f2, f4, hx]
  have hdrop : (x :: xs).drop (min (0 + 1) (x :: xs).length) = xs := by simp
  rw [hdrop]
  have := ok_foldl xs [x] _ (ok_init x)
  exact ⟨_, _, rfl, this.1, this.2⟩

/-- Every box containing the points contains the bounding box: it is the smallest one. -/
theorem C37_smallest {d : Data (Vec3 K)} (hd : d.WF) (hne : d.contents ≠ []) (b' : AABox3 K)
    (hb' : ∀ p ∈ d.contents, Spec.InBox b' p) :
    ∃ b w, aabb3 d = some (b, w) ∧ ∀ p, Spec.InBox b p → Spec.InBox b' p := by
  obtain ⟨b, w, e, -, hm, h0, h1, h2, h3, h4, h5⟩ := C37_aabb hd hne
  refine ⟨b, w, e, fun p hp => ?_⟩
  obtain ⟨a1, a2, a3, a4, a5, a6⟩ := hp
  refine ⟨?_, ?_, ?_, ?_, ?_, ?_⟩
  · have := (hb' _ (hm 3)).1; linarith
  · have := (hb' _ (hm 0)).2.1; linarith
  · have := (hb' _ (hm 4)).2.2.1; linarith
  · have := (hb' _ (hm 1)).2.2.2.1; linarith
  · have := (hb' _ (hm 5)).2.2.2.2.1; linarith
  · have := (hb' _ (hm 2)).2.2.2.2.2; linarith

/-- NULL exactly for the empty set. -/
theorem C37_empty {d : Data (Vec3 K)} (hd : d.WF) : aabb3 d = none ↔ d.contents = [] := by
  constructor
  · intro h
    by_contra hne
    obtain ⟨b, w, e, -⟩ := C37_aabb hd hne
    rw [h] at e; cases e
  · intro h
    unfold aabb3
    rw [if_pos ((Data.isEmpty_iff hd).2 h)]

example : ∃ b w, aabb3 (Data.assignList [(⟨1,2,3⟩ : Vec3 ℚ), ⟨-1,5,0⟩, ⟨0,0,9⟩]) = some (b, w) ∧
    (∀ p ∈ [(⟨1,2,3⟩ : Vec3 ℚ), ⟨-1,5,0⟩, ⟨0,0,9⟩], Spec.InBox b p) ∧ Spec.Witnesses [(⟨1,2,3⟩ : Vec3 ℚ), ⟨-1,5,0⟩, ⟨0,0,9⟩] b w :=
  C37_aabb (d := Data.assignList [(⟨1,2,3⟩ : Vec3 ℚ), ⟨-1,5,0⟩, ⟨0,0,9⟩])
    (by intro k hk; simp at hk; subst hk; simp) (by simp [Data.assignList, Data.contents])

example : (aabb3 (Data.assignList [(⟨1,2,3⟩ : Vec3 ℚ), ⟨-1,5,0⟩, ⟨0,0,9⟩])).map Prod.fst =
    some ⟨⟨-1,0,0⟩, ⟨1,5,9⟩⟩ := by decide +kernel

/-- `zVec3DDataAABBXform` is the bounding box of the transformed points. -/
theorem C37_xform {d : Data (Vec3 K)} (hd : d.WF) (hne : d.contents ≠ []) (f : Frame3 K) :
    ∃ b w, aabb3Xform d f = some b ∧ (∀ p ∈ d.contents.map f.xform, Spec.InBox b p) ∧
      Spec.Witnesses (d.contents.map f.xform) b w := by
  unfold aabb3Xform
  rw [if_neg (by rw [Data.isEmpty_iff hd]; exact hne)]
  obtain ⟨r1, r2, r3⟩ := hd.rewind
  obtain ⟨f1, f2, f3, f4, -⟩ := r1.fetch
  obtain ⟨x, xs, hx⟩ := List.exists_cons_of_ne_nil hne
  rw [r2, r3, hx] at f3 f4
  rw [r2, hx] at f2
  rcases hf : d.rewind.fetch with ⟨o, d'⟩
  rw [hf] at f1 f2 f3 f4
  dsimp only at f1 f2 f3 f4
  have f3' : o = some x := by rw [f3]; simp
  subst f3'
  have hsz : d.size = (x :: xs).length := by rw [Data.size_eq hd, hx]
  obtain ⟨g1, -⟩ := f1.loop (fun s p => AABox3.inc s (f.xform p)) (d.size + 1)
    (⟨f.xform x, f.xform x⟩, fun _ => f.xform x) (by rw [f2, hsz]; omega)
  dsimp only
  rw [g1, f2, f4, hx]
  have hdrop : (x :: xs).drop (min (0 + 1) (x :: xs).length) = xs := by simp
  rw [hdrop, ← List.foldl_map]
  have := ok_foldl (xs.map f.xform) [f.xform x] _ (ok_init (f.xform x))
  exact ⟨_, _, rfl, by simpa using this.1, by simpa using this.2⟩

private def Ok2 (pts : List (Vec2 K)) (s : AABox2 K × (Fin 4 → Vec2 K)) : Prop :=
  (∀ p ∈ pts, Spec.InBox2 s.1 p) ∧ Spec.Witnesses2 pts s.1 s.2

private theorem ok2_inc {pts : List (Vec2 K)} {s : AABox2 K × (Fin 4 → Vec2 K)} (h : Ok2 pts s) (p : Vec2 K) :
    Ok2 (pts ++ [p]) (AABox2.inc s p) := by
  have hX : (∀ q ∈ pts ++ [p], (AABox2.testIncX p s).1.min.x ≤ q.x ∧ q.x ≤ (AABox2.testIncX p s).1.max.x) ∧
      (∀ q ∈ pts, (AABox2.testIncX p s).1.min.y ≤ q.y ∧ q.y ≤ (AABox2.testIncX p s).1.max.y) ∧
      (∀ j, (AABox2.testIncX p s).2 j ∈ pts ++ [p]) ∧ (AABox2.testIncX p s).2 1 ∈ pts ∧ (AABox2.testIncX p s).2 3 ∈ pts ∧
      ((AABox2.testIncX p s).2 0).x = (AABox2.testIncX p s).1.max.x ∧ ((AABox2.testIncX p s).2 1).y = (AABox2.testIncX p s).1.max.y ∧
      ((AABox2.testIncX p s).2 2).x = (AABox2.testIncX p s).1.min.x ∧ ((AABox2.testIncX p s).2 3).y = (AABox2.testIncX p s).1.min.y := by
    obtain ⟨hb, hm, h0, h1, h2, h3⟩ := h
    have le : s.1.min.x ≤ s.1.max.x := (hb _ (hm 0)).1.trans (hb _ (hm 0)).2.1
    have hup : ∀ k j, Function.update s.2 k p j ∈ pts ++ [p] := by
      intro k j
      by_cases hj : j = k
      · subst hj; simp
      · rw [Function.update_of_ne hj]; exact List.mem_append_left _ (hm j)
    unfold AABox2.testIncX
    split_ifs with c1 c2
    · refine ⟨?_, fun q hq => (hb q hq).2.2, hup 0, ?_, ?_, ?_, ?_, ?_, ?_⟩
      · intro q hq
        rcases List.mem_append.1 hq with hq | hq
        · exact ⟨(hb q hq).1, ((hb q hq).2.1).trans c1.le⟩
        · have : q = p := by simpa using hq
          subst this; exact ⟨le.trans c1.le, le_rfl⟩
      · simpa [Function.update] using hm 1
      · simpa [Function.update] using hm 3
      · simp
      · simpa [Function.update] using h1
      · simpa [Function.update] using h2
      · simpa [Function.update] using h3
    · refine ⟨?_, fun q hq => (hb q hq).2.2, hup 2, ?_, ?_, ?_, ?_, ?_, ?_⟩
      · intro q hq
        rcases List.mem_append.1 hq with hq | hq
        · exact ⟨c2.le.trans (hb q hq).1, (hb q hq).2.1⟩
        · have : q = p := by simpa using hq
          subst this; exact ⟨le_rfl, not_lt.1 c1⟩
      · simpa [Function.update] using hm 1
      · simpa [Function.update] using hm 3
      · simpa [Function.update] using h0
      · simpa [Function.update] using h1
      · simp
      · simpa [Function.update] using h3
    · refine ⟨?_, fun q hq => (hb q hq).2.2, fun j => List.mem_append_left _ (hm j), hm 1, hm 3, h0, h1, h2, h3⟩
      intro q hq
      rcases List.mem_append.1 hq with hq | hq
      · exact ⟨(hb q hq).1, (hb q hq).2.1⟩
      · have : q = p := by simpa using hq
        subst this; exact ⟨not_lt.1 c2, not_lt.1 c1⟩
  unfold AABox2.inc
  revert hX
  generalize AABox2.testIncX p s = t
  rintro ⟨bx, bY, hm, m1, m3, h0, h1, h2, h3⟩
  have le : t.1.min.y ≤ t.1.max.y := (bY _ m1).1.trans (bY _ m1).2
  have hup : ∀ k j, Function.update t.2 k p j ∈ pts ++ [p] := by
    intro k j
    by_cases hj : j = k
    · subst hj; simp
    · rw [Function.update_of_ne hj]; exact hm j
  unfold AABox2.testIncY
  split_ifs with c1 c2
  · refine ⟨?_, hup 1, ?_, ?_, ?_, ?_⟩
    · intro q hq
      refine ⟨(bx q hq).1, (bx q hq).2, ?_⟩
      rcases List.mem_append.1 hq with hq | hq
      · exact ⟨(bY q hq).1, ((bY q hq).2).trans c1.le⟩
      · have : q = p := by simpa using hq
        subst this; exact ⟨le.trans c1.le, le_rfl⟩
    · simpa [Function.update] using h0
    · simp
    · simpa [Function.update] using h2
    · simpa [Function.update] using h3
  · refine ⟨?_, hup 3, ?_, ?_, ?_, ?_⟩
    · intro q hq
      refine ⟨(bx q hq).1, (bx q hq).2, ?_⟩
      rcases List.mem_append.1 hq with hq | hq
      · exact ⟨c2.le.trans (bY q hq).1, (bY q hq).2⟩
      · have : q = p := by simpa using hq
        subst this; exact ⟨le_rfl, not_lt.1 c1⟩
    · simpa [Function.update] using h0
    · simpa [Function.update] using h1
    · simpa [Function.update] using h2
    · simp
  · refine ⟨?_, hm, h0, h1, h2, h3⟩
    intro q hq
    refine ⟨(bx q hq).1, (bx q hq).2, ?_⟩
    rcases List.mem_append.1 hq with hq | hq
    · exact bY q hq
    · have : q = p := by simpa using hq
      subst this; exact ⟨not_lt.1 c2, not_lt.1 c1⟩

private theorem ok2_foldl : ∀ (xs pts : List (Vec2 K)) (s : AABox2 K × (Fin 4 → Vec2 K)), Ok2 pts s →
    Ok2 (pts ++ xs) (xs.foldl AABox2.inc s)
  | [], pts, s, h => by simpa using h
  | x :: xs, pts, s, h => by
    have := ok2_foldl xs (pts ++ [x]) _ (ok2_inc h x)
    simpa using this

/-- `zVec2DDataAABB` on any non-empty point set. -/
theorem C37_aabb2D {d : Data (Vec2 K)} (hd : d.WF) (hne : d.contents ≠ []) :
    ∃ b w, aabb2 d = some (b, w) ∧ (∀ p ∈ d.contents, Spec.InBox2 b p) ∧ Spec.Witnesses2 d.contents b w := by
  unfold aabb2
  rw [if_neg (by rw [Data.isEmpty_iff hd]; exact hne)]
  obtain ⟨r1, r2, r3⟩ := hd.rewind
  obtain ⟨f1, f2, f3, f4, -⟩ := r1.fetch
  obtain ⟨x, xs, hx⟩ := List.exists_cons_of_ne_nil hne
  rw [r2, r3, hx] at f3 f4
  rw [r2, hx] at f2
  rcases hf : d.rewind.fetch with ⟨o, d'⟩
  rw [hf] at f1 f2 f3 f4
  dsimp only at f1 f2 f3 f4
  have f3' : o = some x := by rw [f3]; simp
  subst f3'
  have hsz : d.size = (x :: xs).length := by rw [Data.size_eq hd, hx]
  obtain ⟨g1, -⟩ := f1.loop AABox2.inc (d.size + 1) (⟨x, x⟩, fun _ => x) (by rw [f2, hsz]; omega)
  dsimp only
  rw [g1, f2, f4, hx]
  have hdrop : (x :: xs).drop (min (0 + 1) (x :: xs).length) = xs := by simp
  rw [hdrop]
  have hi : Ok2 [x] (⟨x, x⟩, fun _ => x) := by
    refine ⟨?_, by simp, rfl, rfl, rfl, rfl⟩
    intro p hp
    have : p = x := by simpa using hp
    subst this
    exact ⟨le_rfl, le_rfl, le_rfl, le_rfl⟩
  have := ok2_foldl xs [x] _ hi
  exact ⟨_, _, rfl, this.1, this.2⟩

end Zeo

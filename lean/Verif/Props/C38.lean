import Verif.Model.BV
import Verif.Lemmas.Data

/-! # C38: the point set of the Minkowski difference

The property as a user would state it — the hull is taken of `v1 - v2` over all pairs — is false of
the code: `data2` is rewound only once. -/

namespace Zeo
variable {K : Type*} [Field K] [LinearOrder K] [IsStrictOrderedRing K]

/-- The specification: the differences of all pairs. -/
def Spec.allDiffs (xs ys : List (Vec3 K)) : List (Vec3 K) := xs.flatMap fun a => ys.map fun b => a.sub b

private theorem inner_done {d2 out : Data (Vec3 K)} (h : d2.WF) (hf : d2.fetch.1 = none) (v : Vec3 K) :
    (minkowskiInner (d2, out) v).2 = out ∧ (minkowskiInner (d2, out) v).1.WF ∧ (minkowskiInner (d2, out) v).1.fetch.1 = none := by
  unfold minkowskiInner
  dsimp only
  have h1 := h.fetch
  unfold Data.loop
  rcases hq : d2.fetch with ⟨_ | w, d'⟩
  · refine ⟨rfl, ?_, ?_⟩
    · rw [hq] at h1; exact h1.1
    · have : d' = d2 := by
        unfold Data.fetch at hq
        cases hp : d2.peek with
        | none => rw [hp] at hq; exact (Prod.ext_iff.1 hq).2.symm
        | some _ => rw [hp] at hq; exact absurd (Prod.ext_iff.1 hq).1 (by simp)
      dsimp only
      rw [this, hq]
  · rw [hq] at hf; cases hf

private theorem rest_done : ∀ (xs : List (Vec3 K)) {d2 out : Data (Vec3 K)}, d2.WF → d2.fetch.1 = none →
    (xs.foldl minkowskiInner (d2, out)).2 = out
  | [], _, _, _, _ => rfl
  | x :: xs, d2, out, h, hf => by
    obtain ⟨h1, h2, h3⟩ := inner_done (out := out) h hf x
    rw [List.foldl_cons]
    have : minkowskiInner (d2, out) x = ((minkowskiInner (d2, out) x).1, out) := Prod.ext rfl h1
    rw [this]
    exact rest_done xs h2 h3

/-- Adding to an array with enough room appends. -/
private theorem array_adds (v1 : Vec3 K) : ∀ (ys cells : List (Vec3 K)) (n : ℕ), n + ys.length ≤ cells.length →
    (ys.foldl (fun (out : Data (Vec3 K)) v2 => (out.add (v1.sub v2)).2) (.arr false cells n n)).contents =
      cells.take n ++ ys.map (fun b => v1.sub b)
  | [], cells, n, _ => by simp [Data.contents]
  | y :: ys, cells, n, h => by
    have hn : n < cells.length := by simp at h; omega
    rw [List.foldl_cons]
    have : (Data.add (v1.sub y) (.arr false cells n n)).2 = .arr false (cells.set n (v1.sub y)) (n + 1) (n + 1) := by
      have hn' : ¬ n ≥ cells.length := by omega
      simp [Data.add, hn']
    rw [this, array_adds v1 ys _ _ (by simp at h ⊢; omega)]
    have ht : (cells.set n (v1.sub y)).take (n + 1) = cells.take n ++ [v1.sub y] := by
      rw [List.take_add_one, List.take_set_of_le (le_refl n)]
      simp [hn]
    rw [ht]; simp

/-- What is computed: only the differences of the first point of `data1` with the points of `data2`. -/
theorem C38_first_point_only {d1 d2 : Data (Vec3 K)} (h1 : d1.WF) (h2 : d2.WF) (a : Vec3 K) (as : List (Vec3 K))
    (ha : d1.contents = a :: as) :
    (minkowskiSub d1 d2).contents = Spec.allDiffs [a] d2.contents := by
  unfold minkowskiSub
  rw [(h1.forEach minkowskiInner _).1, ha, List.foldl_cons]
  obtain ⟨r1, r2, r3⟩ := h2.rewind
  have hs : d2.rewind.size = d2.contents.length := by rw [Data.size_eq r1, r2]
  obtain ⟨g1, g2, g3, g4⟩ := r1.loop (fun (out : Data (Vec3 K)) v2 => (out.add (a.sub v2)).2) (d2.rewind.size + 1)
    (Data.initArray Vec3.zero (d1.size * d2.size)) (by rw [r2, r3, hs]; omega)
  have e : minkowskiInner (d2.rewind, Data.initArray Vec3.zero (d1.size * d2.size)) a =
      ((minkowskiInner (d2.rewind, Data.initArray Vec3.zero (d1.size * d2.size)) a).1,
       d2.contents.foldl (fun (out : Data (Vec3 K)) v2 => (out.add (a.sub v2)).2) (Data.initArray Vec3.zero (d1.size * d2.size))) := by
    refine Prod.ext rfl ?_
    rw [r2, r3] at g1
    exact g1
  have g2' : (minkowskiInner (d2.rewind, Data.initArray Vec3.zero (d1.size * d2.size)) a).1.WF := g2
  have g4' : (minkowskiInner (d2.rewind, Data.initArray Vec3.zero (d1.size * d2.size)) a).1.fetch.1 = none := g4
  rw [e, rest_done as g2' g4']
  unfold Data.initArray
  rw [array_adds]
  · simp [Spec.allDiffs]
  · rw [Data.size_eq h1, Data.size_eq h2, ha]
    simp
    nlinarith

/-- The property holds when `data1` has exactly one point (or none). What is missing: more points. -/
theorem C38_single_partial {d1 d2 : Data (Vec3 K)} (h1 : d1.WF) (h2 : d2.WF) (hl : d1.contents.length ≤ 1) :
    (minkowskiSub d1 d2).contents = Spec.allDiffs d1.contents d2.contents := by
  rcases hc : d1.contents with _ | ⟨a, as⟩
  · unfold minkowskiSub
    rw [(h1.forEach minkowskiInner _).1, hc]
    simp [Data.initArray, Data.contents, Spec.allDiffs]
  · rw [C38_first_point_only h1 h2 a as hc]
    rw [hc] at hl
    have : as = [] := by
      cases as with
      | nil => rfl
      | cons _ _ => simp at hl
    rw [this]

/-- For every first set of at least two points and every non-empty second set, points are missing:
`|data2|` of them are handed to the hull instead of `|data1| |data2|`. -/
theorem C38_pairs_missing {d1 d2 : Data (Vec3 K)} (h1 : d1.WF) (h2 : d2.WF) (hl : 2 ≤ d1.contents.length)
    (hne : d2.contents ≠ []) :
    (minkowskiSub d1 d2).contents.length < (Spec.allDiffs d1.contents d2.contents).length := by
  rcases hc : d1.contents with _ | ⟨a, as⟩
  · rw [hc] at hl; simp at hl
  · rw [C38_first_point_only h1 h2 a as hc]
    rw [hc] at hl
    have hp : 0 < d2.contents.length := List.length_pos_iff.2 hne
    have hlen : ∀ xs : List (Vec3 K), (Spec.allDiffs xs d2.contents).length = xs.length * d2.contents.length := by
      intro xs
      induction xs with
      | nil => simp [Spec.allDiffs]
      | cons x xs ih =>
        simp only [Spec.allDiffs, List.flatMap_cons, List.length_append, List.length_map, List.length_cons] at ih ⊢
        rw [ih]; ring
    rw [hlen, hlen]
    simp at hl ⊢
    nlinarith

/-- Consequently the hull is wrong: the two sets below overlap at the point (1,0,0), so the origin is
among the differences, but all points handed to the hull have a positive first coordinate. -/
theorem C38_origin_lost : ∃ d1 d2 : Data (Vec3 ℚ), d1.WF ∧ d2.WF ∧
    Vec3.zero ∈ Spec.allDiffs d1.contents d2.contents ∧ ∀ v ∈ (minkowskiSub d1 d2).contents, 0 < v.x := by
  refine ⟨Data.assignList [⟨5,0,0⟩, ⟨1,0,0⟩], Data.assignList [⟨1,0,0⟩, ⟨2,0,0⟩], ?_, ?_, ?_, ?_⟩
  · intro k hk; simp at hk; subst hk; simp
  · intro k hk; simp at hk; subst hk; simp
  · decide +kernel
  · decide +kernel

end Zeo

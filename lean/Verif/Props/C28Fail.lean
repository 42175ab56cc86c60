import Verif.Model.KdFail
import Verif.Props.C30

/-! # C28: k-d trees when memory runs out

A point that cannot be added because there is no memory leaves all searches as they were, but not the tree: its size
is one too large from then on, and the array made from it has a vector that was never added. -/

namespace Zeo
noncomputable section
open Classical Kd

namespace Kd

/-- The tree without the sizes. -/
private def skel : Kd → Kd
  | nil => nil
  | node _ i s q reg c0 c1 => node 0 i s q reg (skel c0) (skel c1)

private theorem skel_fail (p : Vec3 ℝ) (t : Kd) : skel (addToFail p t) = skel t := by
  induction t with
  | nil => rfl
  | node n i s q reg c0 c1 ih0 ih1 =>
    unfold addToFail
    split_ifs <;> simp [skel, ih0, ih1]

private theorem overlap_skel (x st) (t : Kd) : overlap x st (skel t) = overlap x st t := by cases t <;> rfl
private theorem near_skel (x r) (t : Kd) : near x r (skel t) = near x r t := by cases t <;> rfl

private theorem nnOpp_skel (x : Vec3 ℝ) (t : Kd) : ∀ st, nnOpp x (skel t) st = nnOpp x t st := by
  induction t with
  | nil => intro st; rfl
  | node n i s q reg c0 c1 ih0 ih1 => intro st; simp only [skel, nnOpp, overlap_skel, ih0, ih1]

private theorem nnRec_skel (x : Vec3 ℝ) (t : Kd) : ∀ st, nnRec x (skel t) st = nnRec x t st := by
  induction t with
  | nil => intro st; rfl
  | node n i s q reg c0 c1 ih0 ih1 => intro st; simp only [skel, nnRec, overlap_skel, nnOpp_skel, ih0, ih1]

private theorem vicOpp_skel (x r) (t : Kd) : ∀ a, vicOpp x r (skel t) a = vicOpp x r t a := by
  induction t with
  | nil => intro a; rfl
  | node n i s q reg c0 c1 ih0 ih1 => intro a; simp only [skel, vicOpp, near_skel, ih0, ih1]

private theorem vicRec_skel (x r) (t : Kd) : ∀ a, vicRec x r (skel t) a = vicRec x r t a := by
  induction t with
  | nil => intro a; rfl
  | node n i s q reg c0 c1 ih0 ih1 => intro a; simp only [skel, vicRec, near_skel, vicOpp_skel, ih0, ih1]

private theorem toArrayRec_skel (t : Kd) : ∀ a, toArrayRec (skel t) a = toArrayRec t a := by
  induction t with
  | nil => intro a; rfl
  | node n i s q reg c0 c1 ih0 ih1 => intro a; simp only [skel, toArrayRec, ih0, ih1]

private theorem preorder_skel (t : Kd) : preorder (skel t) = preorder t := by
  induction t with
  | nil => rfl
  | node n i s q reg c0 c1 ih0 ih1 => simp only [skel, preorder, ih0, ih1]

private theorem toArrayRec_push (z : Vec3 ℝ) (t : Kd) : ∀ a b, toArrayRec t a = some b →
    toArrayRec t (a.push z) = some (b.push z) := by
  induction t with
  | nil => intro a b h; simp only [toArrayRec, Option.some.injEq] at h ⊢; rw [h]
  | node n i s q reg c0 c1 ih0 ih1 =>
    intro a b h
    unfold toArrayRec at h ⊢
    by_cases hi : i < a.size
    · rw [dif_pos hi] at h
      rw [dif_pos (by rw [Array.size_push]; omega), Array.set_push, dif_pos hi]
      cases h0 : toArrayRec c0 (a.set i q hi) with
      | none => rw [h0] at h; cases h
      | some a0 =>
        rw [h0] at h
        rw [ih0 _ _ h0]
        exact ih1 _ _ h
    · rw [dif_neg hi] at h; cases h

private theorem size_fail (p : Vec3 ℝ) (t : Kd) (h : t ≠ nil) : (addToFail p t).size = t.size + 1 := by
  cases t with
  | nil => exact absurd rfl h
  | node n i s q reg c0 c1 => unfold addToFail; split_ifs <;> rfl

end Kd

/-- **C28, negated (and C29, C30 kept).** A point for which there is no memory changes no search and no list of the
points, but the size of the tree is one more than the number of its points, and the array of its points ends with a
zero vector that was never added. -/
theorem C28_noMemory_false (ps : List (Vec3 ℝ)) (hps : ps ≠ []) (p : Vec3 ℝ) :
    (∀ x, (addToFail p (build ps)).nn x = (build ps).nn x) ∧
    (∀ x r, (addToFail p (build ps)).vicinity x r = (build ps).vicinity x r) ∧
    (addToFail p (build ps)).preorder = (build ps).preorder ∧
    (addToFail p (build ps)).size = ps.length + 1 ∧
    (addToFail p (build ps)).toArray = some (ps.toArray.push .zero) := by
  have e := skel_fail p (build ps)
  have hs := (C28_size_and_ids ps).1
  have hn : build ps ≠ nil := fun h => by
    rw [h] at hs; exact hps (List.length_eq_zero_iff.mp hs.symm)
  have hz : (addToFail p (build ps)).size = ps.length + 1 := by rw [size_fail p _ hn, hs]
  refine ⟨fun x => ?_, fun x r => ?_, ?_, hz, ?_⟩
  · unfold nn; rw [← nnRec_skel, e, nnRec_skel]
  · unfold vicinity; rw [← vicRec_skel, e, vicRec_skel]
  · rw [← preorder_skel, e, preorder_skel]
  · unfold toArray
    rw [hz, ← toArrayRec_skel, e, toArrayRec_skel, Array.replicate_succ]
    apply toArrayRec_push
    have := C28_toArray ps
    unfold toArray at this
    rwa [hs] at this

/-- With one point in the tree and one that could not be added the array has two vectors. -/
example : (addToFail ⟨1, 1, 1⟩ (build [⟨2, 0, 0⟩])).toArray = some #[⟨2, 0, 0⟩, .zero] :=
  (C28_noMemory_false [⟨2, 0, 0⟩] (by simp) ⟨1, 1, 1⟩).2.2.2.2

end
end Zeo

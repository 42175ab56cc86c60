import Verif.Model.ColPHMem
import Verif.Props.C35Mem

/-! # C75: the memory of the intersection of polyhedra

`zIntersectPH3D` destroys its local polyhedron also where it leaves early, when nothing has initialised it yet.  This
never happens: the dual transformation never fails, because distances are kept away from zero, and the array has room
for all faces.  Its dataset is given back however far it comes. -/

namespace Zeo

open Life IPH DataMem

private theorem clamp_ne (d : ℝ) : clamp d ≠ 0 := by
  unfold clamp minOffset
  split_ifs with h1 h2
  · norm_num
  · norm_num
  · rintro rfl
    exact h2 ⟨le_refl _, by norm_num [minOffset]⟩

private theorem xform_true (t : Tri3 ℝ) (p old : Vec3 ℝ) : (dualXform t p old).1 = true := by
  unfold dualXform Vec3.div; rw [if_neg (clamp_ne _)]

private theorem fill_some (x : Tri3 ℝ → Bool × Vec3 ℝ) (c : Vec3 ℝ) (hx : ∀ t, (x t).1 = true) : ∀ (ts : List (Tri3 ℝ))
    (cells : List (Vec3 ℝ)) n i, i + ts.length ≤ cells.length → (fill x ts c (.arr false cells n i)).isSome := by
  intro ts
  induction ts with
  | nil => intro cells n i _; rfl
  | cons t ts ih =>
    intro cells n i hl
    rw [List.length_cons] at hl
    have h1 : Data.add ((x t).2.add c) (.arr false cells n i) = (true, .arr false (cells.set i ((x t).2.add c)) (i + 1) (i + 1)) := by
      rw [Data.add, if_neg (by omega)]
    have h2 := ih (cells.set i ((x t).2.add c)) (i + 1) (i + 1) (by rw [List.length_set]; omega)
    unfold fill at h2 ⊢
    rw [List.foldlM_cons, hx t, h1]
    simpa only [Bool.and_self, if_true, Option.bind_eq_bind, Option.bind_some] using h2

/-- **C75.** For any two polyhedra and any base point, even on a face or outside, the local polyhedron is initialised
whenever it is destroyed. -/
theorem C75_ch_init (mem : Bool) (ph1 ph2 : PH ℝ) (p old : Vec3 ℝ) : chAtEnd mem ph1 ph2 p old ≠ some false := by
  cases mem with
  | false => simp [chAtEnd]
  | true =>
    have := fill_some (fun t => dualXformA t p old) .zero (fun t => xform_true t _ _)
      (ph1.face.map ph1.tri ++ ph2.face.map ph2.tri)
      (List.replicate (ph1.face.length + ph2.face.length) .zero) 0 0 (by simp)
    simp only [chAtEnd, if_true, ne_eq, Option.some.injEq]
    rw [Bool.not_eq_false]; exact this

/-- The function does get there. -/
example (ph1 ph2 : PH ℝ) (p old : Vec3 ℝ) : chAtEnd true ph1 ph2 p old = some true := by
  have := C75_ch_init true ph1 ph2 p old
  simp only [chAtEnd, if_true, ne_eq, Option.some.injEq, Bool.not_eq_false] at this ⊢
  exact this

/-- **C75.** However far the intersection of polyhedra comes, its dataset frees nothing twice and leaves the vertices of
the polyhedra alone, and all memory it took is given back. -/
theorem C75_mem (v : ℕ) (r : Reach) (h₀ : Heap) (k : ∀ x ∈ h₀.live, x < h₀.next) :
    ∃ h', life (interOps v r) D.ctor h₀ = some h' ∧ h'.live = h₀.live := by
  obtain ⟨h', e, -, t⟩ := C35_mem_life (interOps v r) h₀ k
  refine ⟨h', e, t.mpr ?_⟩
  have q : ∀ (n : ℕ) (os : List DataMem.Op), tidy true (List.replicate n .add ++ os) = tidy true os := by
    intro n os
    induction n with
    | zero => rfl
    | succ n ih => simpa [List.replicate_succ, tidy, renews, keeps] using ih
  have q0 : ∀ n : ℕ, tidy true (List.replicate n .add) = true := fun n => by
    simpa [tidy] using q n []
  cases r with
  | base => rfl
  | first b => cases b <;> rfl
  | hull n k => simp [interOps, tidy, renews, keeps, q0]
  | second n k b => cases b <;> simp [interOps, tidy, renews, keeps, q]
  | last n k m j => simp [interOps, tidy, renews, keeps, q, q0]

example : (life (interOps 5 (.last 4 4 2 2)) D.ctor ⟨{5}, 6⟩).map Heap.live = some {5} := by decide

end Zeo

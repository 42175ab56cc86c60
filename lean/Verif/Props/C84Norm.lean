import Verif.Model.OctNorm
import Verif.Props.C84

/-! # C84: normal vectors of the octants of an octree over its whole life -/

namespace Zeo
open Oct NOct

namespace NOct

/-- All matrices `_ncov` are symmetric: true of all octrees that the library makes (`C84_life`). -/
def Sym : NOct → Prop
  | nil => True
  | node _ _ _ c s => c.toMatrix.IsSymm ∧ ∀ i, Sym (s i)

end NOct

private theorem erase_alloc (B : AABox3 ℝ) (v : Vec3 ℝ) (i : Fin 8) (t : NOct) :
    (NOct.alloc B v i t).erase = Oct.alloc B i t.erase := by
  cases t <;> simp [NOct.alloc, Oct.alloc, NOct.erase, NOct.fresh, Oct.fresh]

private theorem erase_update (s : Fin 8 → NOct) (i : Fin 8) (t : NOct) :
    (fun j => (Function.update s i t j).erase) = Function.update (fun j => (s j).erase) i t.erase := by
  funext j; by_cases h : j = i
  · subst h; simp
  · simp [h]

private theorem zero_symm : (Mat3.zero : Mat3 ℝ).toMatrix.IsSymm := by
  refine Matrix.IsSymm.ext fun i j => ?_
  fin_cases i <;> fin_cases j <;> simp [Mat3.toMatrix, Mat3.zero, Vec3.zero]

private theorem sym_ext {m : Mat3 ℝ} : m.toMatrix.IsSymm ↔ m.x.y = m.y.x ∧ m.x.z = m.z.x ∧ m.y.z = m.z.y := by
  constructor
  · intro h
    have a := h.apply 0 1
    have b := h.apply 0 2
    have c := h.apply 1 2
    simp [Mat3.toMatrix] at a b c
    exact ⟨by simp_all, by simp_all, by simp_all⟩
  · rintro ⟨a, b, c⟩
    refine Matrix.IsSymm.ext fun i j => ?_
    fin_cases i <;> fin_cases j <;> simp [Mat3.toMatrix, a, b, c]

private theorem dyad_symm {m : Mat3 ℝ} (h : m.toMatrix.IsSymm) (v : Vec3 ℝ) : (m.addDyad v v).toMatrix.IsSymm := by
  rw [sym_ext] at *
  obtain ⟨a, b, c⟩ := h
  simp only [zeo, a, b, c]
  refine ⟨?_, ?_, ?_⟩ <;> ring

private theorem fold_symm (B : AABox3 ℝ) (pts : List (Vec3 ℝ)) : ∀ {m : Mat3 ℝ}, m.toMatrix.IsSymm →
    (pts.foldl (fun m p => m.addDyad (p.sub (center B)) (p.sub (center B))) m).toMatrix.IsSymm := by
  induction pts with
  | nil => intro m h; exact h
  | cons p pts ih => intro m h; exact ih (dyad_symm h _)

private theorem add_symm {a b : Mat3 ℝ} (ha : a.toMatrix.IsSymm) (hb : b.toMatrix.IsSymm) : (a.add b).toMatrix.IsSymm := by
  rw [sym_ext] at *
  obtain ⟨a1, a2, a3⟩ := ha
  obtain ⟨b1, b2, b3⟩ := hb
  simp only [zeo, a1, a2, a3, b1, b2, b3]
  refine ⟨?_, ?_, ?_⟩ <;> trivial

private theorem est_some {τ : ℝ} (hτ : 0 < τ) {m : Mat3 ℝ} (h : m.toMatrix.IsSymm) (v : Vec3 ℝ) :
    ∃ n, estimateNormal τ m v = some n ∧ n.sqrNorm = 1 := by
  obtain ⟨n, hn, h1, -⟩ := C59_symEigMin hτ m h
  refine ⟨_, by rw [estimateNormal, hn, Option.map_some], ?_⟩
  split_ifs
  · exact h1
  · rw [← h1]; simp only [zeo]; ring

/-! ## Adding points -/

private theorem add_some {τ res : ℝ} {p : Vec3 ℝ} (n : ℕ) : ∀ t : NOct, t.Sym →
    (NOct.addRec τ res p n t).map NOct.erase = Oct.addRec τ res p n t.erase ∧ ∀ t', NOct.addRec τ res p n t = some t' → t'.Sym := by
  induction n with
  | zero => intro t _; cases t <;> simp [NOct.addRec, Oct.addRec]
  | succ n ih =>
    intro t ht
    cases t with
    | nil => simp [NOct.addRec, Oct.addRec, NOct.erase]
    | node B pts v c s =>
      obtain ⟨hc, hs⟩ := ht
      by_cases hB : IsSmallest τ res B
      · simp only [NOct.addRec, NOct.erase, Oct.addRec, if_pos hB, Option.map_some, true_and]
        rintro t' ⟨⟩; exact ⟨hc, hs⟩
      · have ha : (NOct.alloc B v (index (center B) p) (s (index (center B) p))).Sym := by
          have := hs (index (center B) p)
          cases h : s (index (center B) p) with
          | nil => exact ⟨zero_symm, fun _ => trivial⟩
          | node => rw [h] at this; exact this
        obtain ⟨i1, i2⟩ := ih _ ha
        rw [erase_alloc] at i1
        simp only [NOct.addRec, NOct.erase, Oct.addRec, if_neg hB]
        rw [← i1]
        cases hr : NOct.addRec τ res p n (NOct.alloc B v (index (center B) p) (s (index (center B) p))) with
        | none => simp
        | some t =>
          simp only [Option.map_some, NOct.erase, erase_update, true_and]
          rintro t' ⟨⟩
          refine ⟨hc, fun i => ?_⟩
          by_cases hi : i = index (center B) p
          · subst hi; simpa using i2 t hr
          · simpa [hi] using hs i

/-! ## Updating all normals -/

private theorem upd_some {τ : ℝ} (hτ : 0 < τ) (t : NOct) :
    ∃ t', t.update τ = some t' ∧ t'.erase = t.erase := by
  induction t with
  | nil => exact ⟨_, rfl, rfl⟩
  | node B pts v c s ih =>
    have hn : ∃ n, updateNormal τ B pts v = some n := by
      by_cases hp : pts = []
      · exact ⟨v, by rw [hp]; exact C84_octant_empty τ B v⟩
      · obtain ⟨n, h, -⟩ := C84_octant_normal hτ B hp v; exact ⟨n, h⟩
    obtain ⟨n, hn⟩ := hn
    have hs : ∀ i, ((s i).update τ).isSome := fun i => by obtain ⟨t', h, -⟩ := ih i; rw [h]; rfl
    refine ⟨_, by simp only [NOct.update, hn]; rw [dif_pos hs], ?_⟩
    simp only [NOct.erase, Oct.node.injEq, true_and]
    funext i
    obtain ⟨t', h, he⟩ := ih i
    simp only [h, Option.get_some, he]

private theorem upd_node {τ : ℝ} {B : AABox3 ℝ} {pts : List (Vec3 ℝ)} {v : Vec3 ℝ} {c : Mat3 ℝ} {s : Fin 8 → NOct} {t' : NOct}
    (h : (node B pts v c s).update τ = some t') : ∃ n s', updateNormal τ B pts v = some n ∧ (∀ i, (s i).update τ = some (s' i)) ∧
      t' = node B pts n (if pts = [] then c else moment B pts) s' := by
  simp only [NOct.update] at h
  cases hn : updateNormal τ B pts v with
  | none => rw [hn] at h; cases h
  | some n =>
    rw [hn] at h
    dsimp only at h
    by_cases hs : ∀ i, ((s i).update τ).isSome
    · rw [dif_pos hs] at h
      cases h
      exact ⟨n, _, rfl, fun i => (Option.some_get (hs i)).symm, rfl⟩
    · rw [dif_neg hs] at h; cases h

/-- **C84** (`zVec3DOctreeUpdateNormal`): the update always ends and moves no point; afterwards, at any depth, the
normal of an octant with points is a unit vector along which these points spread least about the center of the
octant (within twice the tolerance), on the side of the previous one; an octant without points keeps its own. -/
theorem C84_update {τ : ℝ} (hτ : 0 < τ) (t : NOct) : ∃ t', t.update τ = some t' ∧ t'.erase = t.erase ∧
    ∀ (path : List (Fin 8)) (B : AABox3 ℝ) (pts : List (Vec3 ℝ)) (v : Vec3 ℝ) (c : Mat3 ℝ) (s : Fin 8 → NOct),
      t.sub? path = node B pts v c s → ∃ n c' s', t'.sub? path = node B pts n c' s' ∧ (pts = [] → n = v ∧ c' = c) ∧
        (pts ≠ [] → n.sqrNorm = 1 ∧ 0 ≤ n.inner v ∧ ∀ x : Vec3 ℝ, x.sqrNorm = 1 →
          (pts.map fun p => (p.sub (B.min.mid B.max)).inner n ^ 2).sum ≤ (pts.map fun p => (p.sub (B.min.mid B.max)).inner x ^ 2).sum + 2 * τ) := by
  obtain ⟨t', h, he⟩ := upd_some hτ t
  refine ⟨t', h, he, fun path => ?_⟩
  clear he
  induction path generalizing t t' with
  | nil =>
    intro B pts v c s ht
    rw [show t.sub? [] = t by cases t <;> rfl] at ht
    subst ht
    obtain ⟨n, s', hn, -, rfl⟩ := upd_node h
    refine ⟨n, _, s', rfl, fun hp => ?_, fun hp => ?_⟩
    · subst hp
      rw [C84_octant_empty] at hn
      cases hn
      exact ⟨rfl, if_pos rfl⟩
    · obtain ⟨n', h', q⟩ := C84_octant_normal hτ B hp v
      rw [hn] at h'; cases h'; exact q
  | cons i path ih =>
    intro B pts v c s ht
    cases t with
    | nil => cases ht
    | node B0 pts0 v0 c0 s0 =>
      obtain ⟨n, s', -, hs, rfl⟩ := upd_node h
      exact ih (s0 i) (s' i) (hs i) B pts v c s ht

example : ∃ (t : NOct) (B : AABox3 ℝ) (pts : List (Vec3 ℝ)) (v : Vec3 ℝ) (c : Mat3 ℝ) (s : Fin 8 → NOct),
    t.sub? [3] = node B pts v c s ∧ pts ≠ [] :=
  ⟨node ⟨⟨0, 0, 0⟩, ⟨2, 2, 2⟩⟩ [] ⟨0, 0, 0⟩ .zero fun _ => node ⟨⟨1, 1, 0⟩, ⟨2, 2, 1⟩⟩ [⟨3/2, 3/2, 1/4⟩] ⟨0, 0, 0⟩ .zero fun _ => .nil,
    _, _, _, _, _, rfl, by simp⟩

/-! ## Normals do not influence where the points are -/

private theorem push_props (p : Vec3 ℝ) (t : NOct) : (NOct.push p t).erase = Oct.push p t.erase ∧ (t.Sym → (NOct.push p t).Sym) := by
  cases t <;> simp [NOct.push, Oct.push, NOct.erase, NOct.Sym]

private theorem alloc_sym {B : AABox3 ℝ} {v : Vec3 ℝ} {i : Fin 8} {t : NOct} (h : t.Sym) : (NOct.alloc B v i t).Sym := by
  cases t with
  | nil => exact ⟨zero_symm, fun _ => trivial⟩
  | node => exact h

private theorem dist_fold (B : AABox3 ℝ) (v : Vec3 ℝ) (l : List (Vec3 ℝ)) : ∀ s : Fin 8 → NOct, (∀ i, (s i).Sym) →
    (fun i => (l.foldl (NOct.distribute B v) s i).erase) = l.foldl (Oct.distribute B) (fun i => (s i).erase) ∧
      ∀ i, (l.foldl (NOct.distribute B v) s i).Sym := by
  induction l with
  | nil => intro s h; exact ⟨rfl, h⟩
  | cons p l ih =>
    intro s h
    have h' : ∀ i, (NOct.distribute B v s p i).Sym := by
      intro i
      unfold NOct.distribute
      by_cases hi : i = index (center B) p
      · subst hi; simpa using (push_props p _).2 (alloc_sym (h _))
      · simpa [hi] using h i
    obtain ⟨e, q⟩ := ih _ h'
    refine ⟨?_, q⟩
    rw [List.foldl_cons, List.foldl_cons, e]
    congr 1
    unfold NOct.distribute Oct.distribute
    rw [erase_update, (push_props _ _).1, erase_alloc]

private theorem div_some {τ res : ℝ} (hτ : 0 < τ) (n : ℕ) : ∀ t : NOct, t.Sym →
    (NOct.divide τ res n t).map NOct.erase = Oct.divide τ res n t.erase ∧ ∀ t', NOct.divide τ res n t = some t' → t'.Sym := by
  induction n with
  | zero =>
    intro t _
    cases t with
    | nil => simp [NOct.divide, Oct.divide, NOct.erase, NOct.Sym]
    | node => simp [NOct.divide, Oct.divide, NOct.erase]
  | succ n ih =>
    intro t ht
    cases t with
    | nil => simp [NOct.divide, Oct.divide, NOct.erase, NOct.Sym]
    | node B pts v c s =>
      obtain ⟨hc, hs⟩ := ht
      by_cases hB : IsSmallest τ res B
      · have hf := fold_symm B pts hc
        obtain ⟨m, hm, -⟩ := est_some hτ hf v
        simp only [NOct.divide, NOct.erase, Oct.divide, if_pos hB, hm, Option.map_some, true_and]
        rintro t' ⟨⟩; exact ⟨hf, hs⟩
      · obtain ⟨e, q⟩ := dist_fold B v pts.reverse s hs
        simp only [NOct.divide, NOct.erase, Oct.divide, if_neg hB]
        have e' : ∀ i, Oct.divide τ res n (pts.reverse.foldl (Oct.distribute B) (fun i => (s i).erase) i) =
            (NOct.divide τ res n (pts.reverse.foldl (NOct.distribute B v) s i)).map NOct.erase := by
          intro i
          rw [(ih _ (q i)).1, ← e]
        by_cases hd : ∀ i, (NOct.divide τ res n (pts.reverse.foldl (NOct.distribute B v) s i)).isSome
        · rw [dif_pos hd, dif_pos (fun i => by rw [e', Option.isSome_map]; exact hd i)]
          refine ⟨?_, ?_⟩
          · simp only [Option.map_some, NOct.erase, Option.some.injEq, Oct.node.injEq, true_and]
            funext i
            simp only [e', Option.get_map]
          · rintro t' ⟨⟩
            exact ⟨hc, fun i => (ih _ (q i)).2 _ (Option.some_get (hd i)).symm⟩
        · rw [dif_neg hd, dif_neg (fun h => hd fun i => by have := h i; rwa [e', Option.isSome_map] at this)]
          simp

private theorem top_erase (t : NOct) : Oct.top t.erase = t.top := by cases t <;> rfl

private theorem ncov_fold (s : Fin 8 → NOct) (hs : ∀ i, (s i).Sym) (l : List (Fin 8)) : ∀ {c : Mat3 ℝ}, c.toMatrix.IsSymm →
    (l.foldl (fun m i => m.add (NOct.ncov (s i))) c).toMatrix.IsSymm := by
  induction l with
  | nil => intro c h; exact h
  | cons i l ih =>
    intro c h
    refine ih (add_symm h ?_)
    have := hs i
    cases hi : s i with
    | nil => exact zero_symm
    | node => rw [hi] at this; exact this.1

private theorem msub {B : AABox3 ℝ} {pts : List (Vec3 ℝ)} {v : Vec3 ℝ} {c : Mat3 ℝ} {s : Fin 8 → NOct}
    (hc : c.toMatrix.IsSymm) (hs : ∀ i, (s i).Sym) :
    (mergeSubs B pts v c s).erase = .node B (pts ++ (List.finRange 8).flatMap fun i => Oct.top (s i).erase) (fun _ => .nil) ∧
      (mergeSubs B pts v c s).Sym := by
  refine ⟨?_, ncov_fold s hs _ hc, fun _ => trivial⟩
  simp only [mergeSubs, NOct.erase, top_erase]

private theorem reest {τ : ℝ} (hτ : 0 < τ) (t : NOct) (h : t.Sym) :
    ∃ t', reestimate τ t = some t' ∧ t'.erase = t.erase ∧ t'.Sym := by
  cases t with
  | nil => exact ⟨_, rfl, rfl, h⟩
  | node B pts v c s =>
    by_cases hp : pts = []
    · exact ⟨_, if_pos hp, rfl, h⟩
    · obtain ⟨m, hm, -⟩ := est_some hτ h.1 v
      exact ⟨node B pts m c s, by simp only [reestimate, if_neg hp, hm, Option.map_some], rfl, h.1, h.2⟩

private theorem merge_some {τ res : ℝ} (hτ : 0 < τ) (t : NOct) : t.Sym →
    ∃ t', NOct.merge τ res t = some t' ∧ t'.erase = Oct.merge τ res t.erase ∧ t'.Sym := by
  induction t with
  | nil => intro h; exact ⟨_, rfl, rfl, h⟩
  | node B pts v c s ih =>
    rintro ⟨hc, hs⟩
    choose s' h1 h2 h3 using fun i => ih i (hs i)
    have hd : ∀ i, (NOct.merge τ res (s i)).isSome := fun i => by rw [h1 i]; rfl
    have hg : (fun i => (NOct.merge τ res (s i)).get (hd i)) = s' := by funext i; simp only [h1 i, Option.get_some]
    by_cases hB : IsSmallest τ res B
    · obtain ⟨e, q⟩ := msub (B := B) (pts := pts) (v := v) hc h3
      obtain ⟨t', a, b, d⟩ := reest hτ _ q
      refine ⟨t', ?_, ?_, d⟩
      · simp only [NOct.merge]; rw [dif_pos hd, if_pos hB, hg, a]
      · rw [b, e]; simp only [NOct.erase, Oct.merge, if_pos hB, h2]
    · refine ⟨node B pts v c s', ?_, ?_, hc, h3⟩
      · simp only [NOct.merge]; rw [dif_pos hd, if_neg hB, hg]
      · simp only [NOct.erase, Oct.merge, if_neg hB, h2]

private theorem unify_some (t : NOct) : t.Sym →
    (NOct.unify t).1.erase = (Oct.unify t.erase).1 ∧ (NOct.unify t).2 = (Oct.unify t.erase).2 ∧ (NOct.unify t).1.Sym := by
  induction t with
  | nil => intro h; exact ⟨rfl, rfl, h⟩
  | node B pts v c s ih =>
    rintro ⟨hc, hs⟩
    have he : ∀ i, Oct.exists? (s i).erase = NOct.exists? (s i) := fun i => by cases s i <;> rfl
    have h1 := fun i => (ih i (hs i)).1
    have h2 := fun i => (ih i (hs i)).2.1
    have h3 := fun i => (ih i (hs i)).2.2
    obtain ⟨e, q⟩ := msub (B := B) (pts := pts) (v := v) hc h3
    simp only [NOct.unify, NOct.erase, Oct.unify, he, ← h2, ← h1]
    split_ifs
    · exact ⟨rfl, rfl, hc, h3⟩
    · exact ⟨e, rfl, q⟩
    · exact ⟨rfl, rfl, hc, h3⟩

/-- The calls of the library on an octree. -/
inductive OctCall
  | add (p : Vec3 ℝ)
  | update
  | change (res : ℝ)
  | unify

/-- A call on an octree with normals and a resolution; points outside are refused. -/
noncomputable def OctCall.run (τ : ℝ) (fuel : ℕ) : OctCall → ℝ × NOct → Option (ℝ × NOct)
  | .add p, (res, t) =>
    match t with
    | .nil => none
    | .node B pts v c s => open Classical in
      if B.pointIsInside p τ then (NOct.addRec τ res p fuel (.node B pts v c s)).map fun t => (res, t) else some (res, t)
  | .update, (res, t) => (t.update τ).map fun t => (res, t)
  | .change r, (res, t) => (NOct.changeResolution τ res r fuel t).map fun t => (r, t)
  | .unify, (res, t) => some (res, t.unify.1)

/-- The same call on the octree of `Model/Octree.lean`, on which C31 to C34 are proved. -/
noncomputable def OctCall.run' (τ : ℝ) (fuel : ℕ) : OctCall → ℝ × Oct ℝ → Option (ℝ × Oct ℝ)
  | .add p, (res, t) =>
    match Oct.addPoint τ res fuel p t with
    | .rejected => some (res, t)
    | .overflow => none
    | .added t => some (res, t)
  | .update, (res, t) => some (res, t)
  | .change r, (res, t) => (Oct.changeResolution τ res r fuel t).map fun t => (r, t)
  | .unify, (res, t) => some (res, t.unifyOctant)

private theorem run_sim {τ : ℝ} (hτ : 0 < τ) (fuel : ℕ) (c : OctCall) (res : ℝ) (t : NOct) (ht : t.Sym) :
    (c.run τ fuel (res, t)).map (fun q => (q.1, q.2.erase)) = c.run' τ fuel (res, t.erase) ∧
      ∀ q, c.run τ fuel (res, t) = some q → q.2.Sym := by
  cases c with
  | add p =>
    cases t with
    | nil => exact ⟨rfl, fun q h => by cases h⟩
    | node B pts v c s =>
      obtain ⟨e, q⟩ := add_some (τ := τ) (res := res) (p := p) fuel _ ht
      by_cases hB : B.pointIsInside p τ
      · simp only [OctCall.run, OctCall.run', NOct.erase, Oct.addPoint, if_pos hB]
        simp only [NOct.erase] at e
        rw [← e]
        cases hr : NOct.addRec τ res p fuel (.node B pts v c s) with
        | none => simp
        | some t => exact ⟨rfl, by rintro _ ⟨⟩; exact q t hr⟩
      · simp only [OctCall.run, OctCall.run', NOct.erase, Oct.addPoint, if_neg hB]
        exact ⟨rfl, by rintro _ ⟨⟩; exact ht⟩
  | update =>
    obtain ⟨t', h, he⟩ := upd_some hτ t
    refine ⟨by simp only [OctCall.run, OctCall.run', h, Option.map_some, he], ?_⟩
    simp only [OctCall.run, h, Option.map_some]
    rintro _ ⟨⟩
    clear he
    induction t generalizing t' with
    | nil => cases h; exact ht
    | node B pts v c s ih =>
      obtain ⟨n, s', -, hs, rfl⟩ := upd_node h
      refine ⟨?_, fun i => ih i (ht.2 i) (s' i) (hs i)⟩
      split_ifs
      · exact ht.1
      · exact fold_symm B pts zero_symm
  | change r =>
    simp only [OctCall.run, OctCall.run', NOct.changeResolution, Oct.changeResolution]
    by_cases hr : r < res
    · obtain ⟨e, q⟩ := div_some (res := r) hτ fuel t ht
      rw [if_pos hr, if_pos hr, ← e]
      cases hd : NOct.divide τ r fuel t with
      | none => simp
      | some t' => exact ⟨rfl, by rintro _ ⟨⟩; exact q t' hd⟩
    · obtain ⟨t', h, he, q⟩ := merge_some (res := r) hτ t ht
      rw [if_neg hr, if_neg hr, h, ← he]
      exact ⟨rfl, by rintro _ ⟨⟩; exact q⟩
  | unify =>
    obtain ⟨a, -, b⟩ := unify_some t ht
    exact ⟨by simp only [OctCall.run, OctCall.run', Option.map_some, a, Oct.unifyOctant], by rintro _ ⟨⟩; exact b⟩

/-- **C84** (normals and points): whatever is called on an octree, in whatever order, the normals do not influence
where the points are, nor whether a call ends: all that C31 to C34 claim about octrees without normals holds. -/
theorem C84_life {τ : ℝ} (hτ : 0 < τ) (fuel : ℕ) (cs : List OctCall) (res xmin ymin zmin xmax ymax zmax : ℝ) :
    ((cs.foldl (fun q c => q.bind (c.run τ fuel)) (some (res, NOct.init xmin ymin zmin xmax ymax zmax))).map fun q => (q.1, q.2.erase)) =
      cs.foldl (fun q c => q.bind (c.run' τ fuel)) (some (res, Oct.init xmin ymin zmin xmax ymax zmax)) := by
  have key : ∀ (cs : List OctCall) (q : Option (ℝ × NOct)), (∀ r, q = some r → r.2.Sym) →
      ((cs.foldl (fun q c => q.bind (c.run τ fuel)) q).map fun q => (q.1, q.2.erase)) =
        cs.foldl (fun q c => q.bind (c.run' τ fuel)) (q.map fun q => (q.1, q.2.erase)) := by
    intro cs
    induction cs with
    | nil => intro q _; rfl
    | cons c cs ih =>
      intro q hq
      rw [List.foldl_cons, List.foldl_cons, ih]
      · congr 1
        cases q with
        | none => rfl
        | some r => exact (run_sim hτ fuel c r.1 r.2 (hq r rfl)).1
      · intro r hr
        cases q with
        | none => cases hr
        | some r0 => exact (run_sim hτ fuel c r0.1 r0.2 (hq r0 rfl)).2 r hr
  refine key cs _ ?_
  rintro r ⟨⟩
  exact ⟨zero_symm, fun _ => trivial⟩

/-! ## Where the normals are not those of the points -/

private theorem est_min {τ : ℝ} (hτ : 0 < τ) {m : Mat3 ℝ} (h : m.toMatrix.IsSymm) {v n : Vec3 ℝ} (hn : estimateNormal τ m v = some n) :
    n.sqrNorm = 1 ∧ ∀ x : Vec3 ℝ, x.sqrNorm = 1 → n.inner (m.mulVec n) ≤ x.inner (m.mulVec x) + 2 * τ := by
  obtain ⟨w, hw, h1, h2⟩ := C59_symEigMin hτ m h
  rw [estimateNormal, hw, Option.map_some] at hn
  cases hn
  split_ifs
  · exact ⟨h1, h2⟩
  · refine ⟨by rw [← h1]; simp only [zeo]; ring, fun x hx => ?_⟩
    have := h2 x hx
    have e : w.rev.inner (m.mulVec w.rev) = w.inner (m.mulVec w) := by simp only [zeo]; ring
    rw [e]; exact this

/-- **Moments are counted twice**: two points are added to an octree of one octant, the normals are updated, a third
point is added and the resolution is refined, without any effect on the octant, which is still the smallest.  The normal
is then nearly orthogonal to the y axis, although it is along the y axis that the three points spread least: updating
the normals gives (nearly) that axis. -/
theorem C84_refine_false {τ : ℝ} (hτ : 0 < τ) (fuel : ℕ) :
    ∃ t : NOct, [OctCall.add ⟨2/5, 0, 0⟩, .add ⟨0, 3/10, 0⟩, .update, .add ⟨0, 0, 2/5⟩].foldl (fun q c => q.bind (c.run τ (fuel + 1)))
        (some (2, NOct.init (-1/2) (-1/2) (-1/2) (1/2) (1/2) (1/2))) = some (2, t) ∧
      (∃ t', NOct.changeResolution τ 2 1 (fuel + 1) t = some t' ∧ t'.erase = t.erase ∧ t'.norm.sqrNorm = 1 ∧ t'.norm.y ^ 2 ≤ 100 * τ) ∧
      ∃ t'', t.update τ = some t'' ∧ t''.norm.sqrNorm = 1 ∧ 1 - 30 * τ ≤ t''.norm.y ^ 2 := by
  have hB : (AABox3.create (-1/2) (-1/2) (-1/2) (1/2) (1/2) (1/2) : AABox3 ℝ) = ⟨⟨-1/2, -1/2, -1/2⟩, ⟨1/2, 1/2, 1/2⟩⟩ := by
    simp only [AABox3.create]; norm_num
  set B : AABox3 ℝ := ⟨⟨-1/2, -1/2, -1/2⟩, ⟨1/2, 1/2, 1/2⟩⟩ with hBd
  have hs : ∀ r : ℝ, 1 ≤ r → IsSmallest τ r B := by
    intro r hr; refine ⟨?_, ?_, ?_⟩ <;> simp only [hBd] <;> linarith
  have hc : center B = ⟨0, 0, 0⟩ := by simp only [center, hBd, zeo]; norm_num
  have hin : ∀ x y z : ℝ, |x| ≤ 1/2 → |y| ≤ 1/2 → |z| ≤ 1/2 → B.pointIsInside ⟨x, y, z⟩ τ := by
    intro x y z hx hy hz
    rw [abs_le] at hx hy hz
    refine ⟨⟨?_, ?_⟩, ⟨?_, ?_⟩, ?_, ?_⟩ <;> simp only [hBd] <;> linarith
  have h1 := hin (2/5) 0 0 (by norm_num [abs_le]) (by norm_num) (by norm_num)
  have h2 := hin 0 (3/10) 0 (by norm_num) (by norm_num [abs_le]) (by norm_num)
  have h3 := hin 0 0 (2/5) (by norm_num) (by norm_num) (by norm_num [abs_le])
  set c0 := moment B [⟨2/5, 0, 0⟩, ⟨0, 3/10, 0⟩] with hc0
  have hc0s : c0.toMatrix.IsSymm := fold_symm B _ zero_symm
  obtain ⟨n, hn, -⟩ := est_some hτ hc0s ⟨0, 0, 0⟩
  set t : NOct := .node B [⟨2/5, 0, 0⟩, ⟨0, 3/10, 0⟩, ⟨0, 0, 2/5⟩] n c0 fun _ => .nil with ht
  refine ⟨t, ?_, ?_, ?_⟩
  · have hu : NOct.update τ (.node B [⟨2/5, 0, 0⟩, ⟨0, 3/10, 0⟩] ⟨0, 0, 0⟩ .zero fun _ => .nil) =
        some (.node B [⟨2/5, 0, 0⟩, ⟨0, 3/10, 0⟩] n c0 fun _ => .nil) := by
      simp [NOct.update, updateNormal, ← hc0, hn]
    simp only [List.foldl_cons, List.foldl_nil, Option.bind_some, OctCall.run, NOct.init, NOct.fresh, hB, if_pos h1, if_pos h2, if_pos h3,
      NOct.addRec, if_pos (hs 2 (by norm_num)), Option.map_some, List.nil_append, List.cons_append, hu, ht]
  · set c1 := ([⟨2/5, 0, 0⟩, ⟨0, 3/10, 0⟩, ⟨0, 0, 2/5⟩] : List (Vec3 ℝ)).foldl (fun m p => m.addDyad (p.sub (center B)) (p.sub (center B))) c0 with hc1
    have hc1s : c1.toMatrix.IsSymm := fold_symm B _ hc0s
    obtain ⟨m, hm, -⟩ := est_some hτ hc1s n
    obtain ⟨q1, q2⟩ := est_min hτ hc1s hm
    refine ⟨.node B [⟨2/5, 0, 0⟩, ⟨0, 3/10, 0⟩, ⟨0, 0, 2/5⟩] m c1 fun _ => .nil, ?_, rfl, q1, ?_⟩
    · simp only [NOct.changeResolution, ht, NOct.divide, if_pos (hs 1 le_rfl)]
      rw [if_pos (by norm_num), ← hc1, hm, Option.map_some]
    · have := q2 ⟨0, 0, 1⟩ (by simp only [zeo]; norm_num)
      simp only [hc1, hc0, moment, hc, List.foldl_cons, List.foldl_nil] at this
      simp only [zeo, NOct.norm] at this q1 ⊢
      nlinarith [sq_nonneg m.x, sq_nonneg m.y, sq_nonneg m.z]
  · obtain ⟨m, hm, q1, -, q2⟩ := C84_octant_normal hτ B (pts := [⟨2/5, 0, 0⟩, ⟨0, 3/10, 0⟩, ⟨0, 0, 2/5⟩]) (by simp) n
    refine ⟨.node B [⟨2/5, 0, 0⟩, ⟨0, 3/10, 0⟩, ⟨0, 0, 2/5⟩] m (moment B [⟨2/5, 0, 0⟩, ⟨0, 3/10, 0⟩, ⟨0, 0, 2/5⟩]) fun _ => .nil, ?_, q1, ?_⟩
    · simp [ht, NOct.update, hm]
    · have := q2 ⟨0, 1, 0⟩ (by simp only [zeo]; norm_num)
      have hc' : B.min.mid B.max = ⟨0, 0, 0⟩ := hc
      simp only [hc', List.map_cons, List.map_nil, List.sum_cons, List.sum_nil] at this
      simp only [zeo, NOct.norm] at this q1 ⊢
      nlinarith [sq_nonneg m.x, sq_nonneg m.y, sq_nonneg m.z]

/-- The centre of suboctant `i` of the cube `[0,2]³`, raised by a quarter. -/
noncomputable def octPoint (i : Fin 8) : Vec3 ℝ :=
  ⟨if i.val.testBit 0 then 3/2 else 1/2, if i.val.testBit 1 then 3/2 else 1/2, if i.val.testBit 2 then 7/4 else 3/4⟩

/-- **A unified octant has no unit normal**: eight points are added to a cube of eight octants, one in each, and the
normals are updated, after which each octant has a unit normal.  After `zVec3DOctreeUnifyOctant` the single octant has
a vector of length eight: the sum, which nobody normalises. -/
theorem C84_unify_norm_false {τ : ℝ} (hτ : 0 < τ) (h1 : τ ≤ 1) (fuel : ℕ) :
    ∃ t t' : NOct, ((List.finRange 8).map (fun i => OctCall.add (octPoint i)) ++ [OctCall.update]).foldl (fun q c => q.bind (c.run τ (fuel + 2)))
        (some (1, NOct.init 0 0 0 2 2 2)) = some (1, t) ∧ (∀ i, (t.sub? [i]).norm.sqrNorm = 1) ∧
      OctCall.run τ (fuel + 2) .unify (1, t) = some (1, t') ∧ t'.top.length = 8 ∧ t'.norm.sqrNorm = 64 := by
  have hB : (AABox3.create 0 0 0 2 2 2 : AABox3 ℝ) = ⟨⟨0, 0, 0⟩, ⟨2, 2, 2⟩⟩ := by
    simp only [AABox3.create]; norm_num
  set B : AABox3 ℝ := ⟨⟨0, 0, 0⟩, ⟨2, 2, 2⟩⟩ with hBd
  have hc : center B = ⟨1, 1, 1⟩ := by simp only [center, hBd, zeo]; norm_num
  have hns : ¬ IsSmallest τ 1 B := by
    rintro ⟨h, -⟩; simp only [hBd] at h; linarith
  have hsub : ∀ i : Fin 8, subRegion B i = ⟨⟨if i.val.testBit 0 then 1 else 0, if i.val.testBit 1 then 1 else 0, if i.val.testBit 2 then 1 else 0⟩,
      ⟨if i.val.testBit 0 then 2 else 1, if i.val.testBit 1 then 2 else 1, if i.val.testBit 2 then 2 else 1⟩⟩ := by
    intro i
    rw [subRegion, hc]
    simp only [AABox3.create, hBd]
    cases i.val.testBit 0 <;> cases i.val.testBit 1 <;> cases i.val.testBit 2 <;> norm_num
  have hsm : ∀ i : Fin 8, IsSmallest τ 1 (subRegion B i) := by
    intro i
    rw [hsub, IsSmallest]
    cases i.val.testBit 0 <;> cases i.val.testBit 1 <;> cases i.val.testBit 2 <;> norm_num [hτ]
  have hin : ∀ i, B.pointIsInside (octPoint i) τ := by
    intro i
    simp only [octPoint, AABox3.pointIsInside, hBd]
    cases i.val.testBit 0 <;> cases i.val.testBit 1 <;> cases i.val.testBit 2 <;> simp only [if_true, if_false, Bool.false_eq_true] <;>
      refine ⟨⟨?_, ?_⟩, ⟨?_, ?_⟩, ?_, ?_⟩ <;> linarith
  have hidx : ∀ i, index (center B) (octPoint i) = i := by
    intro i
    rw [hc]
    have hx : decide ((octPoint i).x > 1) = i.val.testBit 0 := by
      rw [Bool.eq_iff_iff, decide_eq_true_eq]; simp only [octPoint]; cases i.val.testBit 0 <;> norm_num
    have hy : decide ((octPoint i).y > 1) = i.val.testBit 1 := by
      rw [Bool.eq_iff_iff, decide_eq_true_eq]; simp only [octPoint]; cases i.val.testBit 1 <;> norm_num
    have hz : decide ((octPoint i).z > 1) = i.val.testBit 2 := by
      rw [Bool.eq_iff_iff, decide_eq_true_eq]; simp only [octPoint]; cases i.val.testBit 2 <;> norm_num
    simp only [index, hx, hy, hz]
    fin_cases i <;> rfl
  set leaf : Fin 8 → NOct := fun i => .node (subRegion B i) [octPoint i] ⟨0, 0, 0⟩ .zero fun _ => .nil with hleaf
  have hadd : ∀ (l : List (Fin 8)) (s : Fin 8 → NOct), l.Nodup → (∀ i ∈ l, s i = .nil) →
      (l.map fun i => OctCall.add (octPoint i)).foldl (fun q c => q.bind (c.run τ (fuel + 2))) (some (1, .node B [] ⟨0, 0, 0⟩ .zero s)) =
        some (1, .node B [] ⟨0, 0, 0⟩ .zero fun i => if i ∈ l then leaf i else s i) := by
    intro l
    induction l with
    | nil => intro s _ _; simp
    | cons i l ih =>
      intro s hd hl
      have hr : OctCall.run τ (fuel + 2) (.add (octPoint i)) (1, .node B [] ⟨0, 0, 0⟩ .zero s) =
          some (1, .node B [] ⟨0, 0, 0⟩ .zero (Function.update s i (leaf i))) := by
        simp only [OctCall.run, if_pos (hin i), NOct.addRec, if_neg hns, hidx, hl i (by simp), NOct.alloc, NOct.fresh, if_pos (hsm i),
          Option.map_some, List.nil_append, hleaf]
      rw [List.map_cons, List.foldl_cons, Option.bind_some, hr, ih _ (List.nodup_cons.1 hd).2]
      · congr 3
        funext j
        by_cases hj : j ∈ l
        · simp [hj]
        · by_cases hji : j = i
          · subst hji; simp [hj]
          · simp [hj, hji]
      · intro j hj
        have : j ≠ i := fun e => (List.nodup_cons.1 hd).1 (e ▸ hj)
        simpa [this] using hl j (List.mem_cons_of_mem _ hj)
  set M : Mat3 ℝ := Mat3.addDyad .zero ⟨0, 0, 1/4⟩ ⟨0, 0, 1/4⟩ with hM
  have hmom : ∀ i, moment (subRegion B i) [octPoint i] = M := by
    intro i
    have : (octPoint i).sub (center (subRegion B i)) = ⟨0, 0, 1/4⟩ := by
      rw [hsub]
      simp only [octPoint, center, zeo]
      cases i.val.testBit 0 <;> cases i.val.testBit 1 <;> cases i.val.testBit 2 <;> norm_num
    rw [moment, List.foldl_cons, List.foldl_nil, this]
  obtain ⟨n, hn, hn1⟩ := est_some hτ (dyad_symm zero_symm ⟨0, 0, 1/4⟩) ⟨0, 0, 0⟩
  rw [← hM] at hn
  set leaf' : Fin 8 → NOct := fun i => .node (subRegion B i) [octPoint i] n M fun _ => .nil with hleaf'
  have hu : ∀ i, (leaf i).update τ = some (leaf' i) := by
    intro i
    simp [hleaf, hleaf', NOct.update, updateNormal, hmom, hn]
  refine ⟨.node B [] ⟨0, 0, 0⟩ .zero leaf', (NOct.unify (.node B [] ⟨0, 0, 0⟩ .zero leaf')).1, ?_, ?_, rfl, ?_⟩
  · rw [List.foldl_append, NOct.init, NOct.fresh, hB, hadd _ _ (List.nodup_finRange 8) (fun _ _ => rfl)]
    simp only [List.mem_finRange, if_true, List.foldl_cons, List.foldl_nil, Option.bind_some, OctCall.run, NOct.update, updateNormal]
    rw [dif_pos (fun i => by rw [hu]; rfl)]
    simp only [hu, Option.get_some, Option.map_some]
  · intro i; exact hn1
  · have hl : ∀ i, NOct.unify (leaf' i) = (leaf' i, true) := by
      intro i
      simp [hleaf', NOct.unify, NOct.exists?]
    have hex : ∀ i, NOct.exists? (leaf' i) = true := fun i => rfl
    have : NOct.unify (.node B [] ⟨0, 0, 0⟩ .zero leaf') = (mergeSubs B [] ⟨0, 0, 0⟩ .zero leaf', true) := by
      simp [NOct.unify, hl, hex]
    rw [this]
    refine ⟨by simp [mergeSubs, NOct.top, hleaf', List.finRange, List.ofFn_succ], ?_⟩
    have e : (mergeSubs B [] ⟨0, 0, 0⟩ .zero leaf').norm = n.mul 8 := by
      simp only [mergeSubs, NOct.norm, hleaf', List.finRange, List.ofFn_succ, List.ofFn_zero, List.foldl_cons, List.foldl_nil]
      simp only [zeo]
      congr 1 <;> ring
    rw [e]
    have : (n.mul 8).sqrNorm = 64 * n.sqrNorm := by simp only [zeo]; ring
    rw [this, hn1, mul_one]

end Zeo

import Verif.Lemmas.Data

/-! # C35: a point set behaves like a sequence with a cursor

Proved for the list and address list kinds over all histories, for the read-only kinds, and for the array
kind over the histories in which points are only added when the cursor has reached the end. For other
histories the claim is false of the array kind: the cursor is also the insertion place, so adding after a
rewind overwrites the first point and drops the others (`C35_array_rewind_add`). -/

namespace Zeo
namespace Data
variable {α : Type*}

/-- The operations of the public interface that change a point set. -/
inductive Op (α : Type*)
  | add (v : α)
  | rewind
  | fetch

/-- One operation. -/
def step (d : Data α) : Op α → Data α
  | .add v => (d.add v).2
  | .rewind => d.rewind
  | .fetch => d.fetch.2

/-- A history. -/
def run (d : Data α) (ops : List (Op α)) : Data α := ops.foldl step d

/-- The results of `n` fetches. -/
def fetches : ℕ → Data α → List (Option α)
  | 0, _ => []
  | n + 1, d => d.fetch.1 :: fetches n d.fetch.2

/-- The points passed to `add` in a history. -/
def added : List (Op α) → List α
  | [] => []
  | .add v :: ops => v :: added ops
  | .rewind :: ops => added ops
  | .fetch :: ops => added ops

/-- What rewinding and fetching shows: the points `xs` in order, then NULL for ever. -/
def Shows (d : Data α) (xs : List α) : Prop :=
  ∀ m, fetches (xs.length + m) d.rewind = xs.map some ++ List.replicate m none

/-- Histories in which points are added only with the cursor at the end: `len` stored points, cursor at
`cur`, capacity `cap`. -/
def AppendOnly (cap : ℕ) : ℕ → ℕ → List (Op α) → Prop
  | _, _, [] => True
  | len, cur, .add _ :: ops =>
    cur = len ∧ if len < cap then AppendOnly cap (len + 1) (len + 1) ops else AppendOnly cap len len ops
  | len, _, .rewind :: ops => AppendOnly cap len 0 ops
  | len, cur, .fetch :: ops => AppendOnly cap len (min (cur + 1) len) ops

theorem WF.step {d : Data α} (h : d.WF) (op : Op α) : (d.step op).WF := by
  cases op with
  | add v => exact h.add v
  | rewind => exact h.rewind.1
  | fetch => exact h.fetch.1

theorem WF.run {d : Data α} (h : d.WF) (ops : List (Op α)) : (d.run ops).WF := by
  induction ops generalizing d with
  | nil => exact h
  | cons op ops ih => exact ih (h.step op)

theorem fetches_aux {d : Data α} (h : d.WF) (n : ℕ) :
    fetches n d = (List.range' d.pos n).map (fun k => d.contents[k]?) := by
  induction n generalizing d with
  | zero => rfl
  | succ n ih =>
    obtain ⟨h1, h2, h3, h4, h5⟩ := h.fetch
    rw [fetches, ih h1, h2, h3, h4, List.range'_succ, List.map_cons]
    congr 1
    by_cases hlt : d.pos < d.contents.length
    · rw [Nat.min_eq_left hlt]
    · have e : min (d.pos + 1) d.contents.length = d.contents.length := by omega
      rw [e]
      apply List.ext_getElem
      · simp
      · intro i hi hi'
        simp only [List.getElem_map, List.getElem_range']
        rw [List.getElem?_eq_none (by omega), List.getElem?_eq_none (by omega)]

theorem WF.shows {d : Data α} (h : d.WF) : d.Shows d.contents := by
  intro m
  obtain ⟨h1, h2, h3⟩ := h.rewind
  rw [fetches_aux h1, h2, h3]
  apply List.ext_getElem?
  intro i
  simp only [List.getElem?_map, List.getElem?_append, List.length_map, List.getElem?_replicate]
  by_cases hi : i < d.contents.length
  · rw [if_pos hi, List.getElem?_range' (by omega)]
    simp [List.getElem?_eq_getElem hi]
  · rw [if_neg hi]
    by_cases hm : i - d.contents.length < m
    · rw [if_pos hm, List.getElem?_range' (by omega)]
      simp; omega
    · rw [if_neg hm, List.getElem?_eq_none (by simp; omega)]
      rfl

theorem list_run (ops : List (Op α)) (xs : List α) (c : Option ℕ) :
    ∃ c', run (lst false xs c) ops = lst false (xs ++ added ops) c' := by
  induction ops generalizing xs c with
  | nil => exact ⟨c, by simp [run, added]⟩
  | cons op ops ih =>
    cases op with
    | add v =>
      obtain ⟨c', h⟩ := ih (xs ++ [v]) c
      exact ⟨c', by rw [added, List.append_cons, ← h]; rfl⟩
    | rewind =>
      obtain ⟨c', h⟩ := ih xs (if xs = [] then none else some 0)
      exact ⟨c', by rw [added, ← h]; rfl⟩
    | fetch =>
      have : ∃ c2, (lst false xs c).fetch.2 = lst false xs c2 := by
        unfold fetch
        cases peek (lst false xs c) with
        | none => exact ⟨c, rfl⟩
        | some v => cases c <;> exact ⟨_, rfl⟩
      obtain ⟨c2, h2⟩ := this
      obtain ⟨c', h⟩ := ih xs c2
      refine ⟨c', ?_⟩
      rw [added, ← h, run, List.foldl_cons]
      exact congrArg (List.foldl step · ops) h2

theorem initList_wf : (initList : Data α).WF := by intro k hk; cases hk

theorem array_run (ops : List (Op α)) : ∀ (cells : List α) (n i : ℕ), n ≤ cells.length → i ≤ n →
    AppendOnly cells.length n i ops →
    ∃ cells' n' i', run (arr false cells n i) ops = arr false cells' n' i' ∧
      cells'.length = cells.length ∧ cells'.take n' = (cells.take n ++ added ops).take cells.length := by
  induction ops with
  | nil =>
    intro cells n i hn hi _
    refine ⟨cells, n, i, rfl, rfl, ?_⟩
    rw [added, List.append_nil, List.take_take, Nat.min_eq_right hn]
  | cons op ops ih =>
    intro cells n i hn hi ha
    cases op with
    | add v =>
      obtain ⟨rfl, ha⟩ := ha
      by_cases hc : i < cells.length
      · rw [if_pos hc] at ha
        obtain ⟨c', n', i', e1, e2, e3⟩ := ih (cells.set i v) (i + 1) (i + 1)
          (by rw [List.length_set]; omega) le_rfl (by rw [List.length_set]; exact ha)
        refine ⟨c', n', i', ?_, by rw [e2, List.length_set], ?_⟩
        · rw [← e1, run, List.foldl_cons]
          refine congrArg (List.foldl step · ops) ?_
          simp only [step, Data.add, ge_iff_le, if_neg (not_le.2 hc)]
        · rw [e3, List.length_set, added, List.append_cons]
          congr 2
          rw [List.take_succ_eq_append_getElem (by rw [List.length_set]; exact hc)]
          simp [List.take_set_of_le]
      · rw [if_neg hc] at ha
        obtain ⟨c', n', i', e1, e2, e3⟩ := ih cells i i hn hi ha
        refine ⟨c', n', i', ?_, e2, ?_⟩
        · rw [← e1, run, List.foldl_cons]
          refine congrArg (List.foldl step · ops) ?_
          simp only [step, Data.add, ge_iff_le, if_pos (not_lt.1 hc)]
        · have hi' : i = cells.length := by omega
          rw [e3, added, hi', List.take_length, List.take_append_of_le_length le_rfl,
            List.take_append_of_le_length le_rfl]
    | rewind => exact ih cells n 0 hn (Nat.zero_le _) ha
    | fetch =>
      obtain ⟨c', n', i', e1, e2, e3⟩ := ih cells n (min (i + 1) n) hn (by omega) ha
      refine ⟨c', n', i', ?_, e2, e3⟩
      rw [← e1, run, List.foldl_cons]
      refine congrArg (List.foldl step · ops) ?_
      simp only [step, fetch, peek]
      by_cases h1 : i ≥ n
      · rw [if_pos h1]
        have : min (i + 1) n = i := by omega
        rw [this]
      · rw [if_neg h1, List.getElem?_eq_getElem (by omega)]
        have : min (i + 1) n = i + 1 := by omega
        rw [this]; rfl

theorem array_shape : ∀ (ops : List (Op α)) (cells : List α) n i, n ≤ cells.length → ∃ cells' n' i',
    run (arr false cells n i) ops = arr false cells' n' i' ∧ cells'.length = cells.length ∧
      n' ≤ cells'.length := by
  intro ops
  induction ops with
  | nil => intro cells n i h; exact ⟨cells, n, i, rfl, rfl, h⟩
  | cons op ops ih =>
    intro cells n i h
    have : ∃ c2 n2 i2, (arr false cells n i).step op = arr false c2 n2 i2 ∧ c2.length = cells.length ∧
        n2 ≤ c2.length := by
      cases op with
      | add v =>
        simp only [step, Data.add]
        split_ifs with h1
        · exact ⟨cells, n, i, rfl, rfl, h⟩
        · exact ⟨_, _, _, rfl, by simp, by simp; omega⟩
      | rewind => exact ⟨cells, n, 0, rfl, rfl, h⟩
      | fetch =>
        simp only [step, fetch]
        cases peek (arr false cells n i) with
        | none => exact ⟨cells, n, i, rfl, rfl, h⟩
        | some v => exact ⟨cells, n, i + 1, rfl, rfl, h⟩
    obtain ⟨c2, n2, i2, e, l, m⟩ := this
    obtain ⟨c3, n3, i3, e', l', m'⟩ := ih c2 n2 i2 m
    refine ⟨c3, n3, i3, ?_, l'.trans l, m'⟩
    rw [← e', run, List.foldl_cons, e]; rfl

theorem find_eq (eq : α → Bool) {d : Data α} (h : d.WF) : d.find eq = d.contents.find? eq := by
  have key : ∀ (xs : List α) (s : Option α),
      xs.foldl (findStep eq) s =
        s.or (xs.find? eq) := by
    intro xs
    induction xs with
    | nil => intro s; simp
    | cons x xs ih =>
      intro s
      rw [List.foldl_cons, ih]
      cases s with
      | some w => rfl
      | none =>
        cases he : eq x <;> simp [findStep, he]
  unfold Data.find
  rw [(h.forEach _ _).1, key]; rfl

end Data

open Data
variable {α : Type*}

/-- What is shown is determined: no point set shows two different sequences. -/
theorem C35_shows_unique (d : Data α) (xs ys : List α) (hx : d.Shows xs) (hy : d.Shows ys) : xs = ys := by
  have h1 := hx ys.length
  have h2 := hy xs.length
  rw [Nat.add_comm ys.length, h1] at h2
  have h3 := congrArg (List.filterMap id) h2
  simpa [List.filterMap_append, List.filterMap_replicate] using h3

/-- List and address list kinds: after every history of additions, rewinds and fetches, rewinding and
fetching yields exactly the added points in order and then NULL, and the size is their number. -/
theorem C35_list (ops : List (Op α)) :
    (run initList ops).Shows (added ops) ∧ (run initList ops).size = (added ops).length := by
  obtain ⟨c, h⟩ := list_run ops [] none
  have hw := (initList_wf (α := α)).run ops
  have hc : (run initList ops).contents = added ops := by
    show (run (lst false [] none) ops).contents = _
    rw [h]; rfl
  exact ⟨hc ▸ hw.shows, by rw [size_eq hw, hc]⟩

/-- No addition to a list is refused. -/
theorem C35_list_accepts (ops : List (Op α)) (v : α) : ((run initList ops).add v).1 = true := by
  obtain ⟨c, h⟩ := list_run ops [] none
  have : run initList ops = _ := h
  rw [this]; rfl

example : (run (initList : Data ℕ) [.add 4, .rewind, .add 5, .fetch, .fetch, .fetch, .add 6]).Shows [4, 5, 6] :=
  (C35_list _).1

/-- Array kind: after every history in which points are added only when the cursor has reached the end,
rewinding and fetching yields the added points in order, up to the capacity.
Missing: the other histories, for which the claim is false (`C35_array_rewind_add`). -/
theorem C35_array_partial (z : α) (cap : ℕ) (ops : List (Op α)) (h : AppendOnly cap 0 0 ops) :
    (run (initArray z cap) ops).Shows ((added ops).take cap) ∧
      (run (initArray z cap) ops).size = min cap (added ops).length := by
  obtain ⟨c', n', i', e1, e2, e3⟩ := array_run ops (List.replicate cap z) 0 0 (Nat.zero_le _) le_rfl
    (by rw [List.length_replicate]; exact h)
  have hw : (run (initArray z cap) ops).WF :=
    WF.run (d := initArray z cap) ⟨Nat.zero_le _, le_rfl⟩ ops
  have hc : (run (initArray z cap) ops).contents = (added ops).take cap := by
    have : run (initArray z cap) ops = _ := e1
    rw [this]
    show c'.take n' = _
    rw [e3]; simp
  refine ⟨hc ▸ hw.shows, ?_⟩
  rw [size_eq hw, hc, List.length_take]

/-- The hypothesis holds of filling the array, of filling it and reading it, and of reading everything
before adding again. -/
example : AppendOnly 3 0 0 [.add 4, .add 5, .rewind, .fetch, .fetch, .add 6, .add 7, .rewind, (.fetch : Op ℕ)] := by
  simp [AppendOnly]
/-- In particular it holds of every sequence of additions. -/
theorem C35_array_fill (z : α) (cap : ℕ) (xs : List α) :
    (run (initArray z cap) (xs.map .add)).Shows (xs.take cap) := by
  have h1 : ∀ (xs : List α) len, AppendOnly cap len len (xs.map Op.add) := by
    intro xs
    induction xs with
    | nil => intro len; trivial
    | cons x xs ih =>
      intro len
      refine ⟨rfl, ?_⟩
      split_ifs <;> exact ih _
  have h2 : added (xs.map Op.add) = xs := by
    induction xs with
    | nil => rfl
    | cons x xs ih => simp only [List.map_cons, added, ih]
  have := (C35_array_partial z cap _ (h1 xs 0)).1
  rwa [h2] at this

/-- Array kind, every history: an addition is accepted exactly if the cursor is below the capacity; a
refused one changes nothing; the size never exceeds the capacity. -/
theorem C35_array_capacity (z : α) (cap : ℕ) (ops : List (Op α)) (v : α) :
    (((run (initArray z cap) ops).add v).1 = true ↔ (run (initArray z cap) ops).pos < cap) ∧
    (((run (initArray z cap) ops).add v).1 = false →
      ((run (initArray z cap) ops).add v).2 = run (initArray z cap) ops) ∧
    (run (initArray z cap) ops).size ≤ cap := by
  obtain ⟨c, n, i, e, l, m⟩ := array_shape ops (List.replicate cap z) 0 0 (Nat.zero_le _)
  have e : run (initArray z cap) ops = arr false c n i := e
  rw [List.length_replicate] at l
  rw [e]
  simp only [Data.add, pos, size]
  refine ⟨?_, ?_, by omega⟩
  · split_ifs with h1
    · simp; omega
    · simp; omega
  · split_ifs with h1
    · intro; rfl
    · intro h; cases h

/-- Array kind: adding `v` after a rewind leaves the single point `v`, whatever was stored before, although
`add` reports success; the points added earlier are no longer shown. -/
theorem C35_array_rewind_add (z : α) (cap : ℕ) (hcap : 0 < cap) (ops : List (Op α)) (v : α) :
    ((run (initArray z cap) (ops ++ [.rewind])).add v).1 = true ∧
      (run (initArray z cap) (ops ++ [.rewind, .add v])).Shows [v] := by
  have hw : (run (initArray z cap) (ops ++ [.rewind, .add v])).WF :=
    WF.run (d := initArray z cap) ⟨Nat.zero_le _, le_rfl⟩ _
  have hp : (run (initArray z cap) (ops ++ [.rewind])).pos = 0 := by
    have hw' : (run (initArray z cap) ops).WF := WF.run (d := initArray z cap) ⟨Nat.zero_le _, le_rfl⟩ _
    rw [run, List.foldl_append]
    exact hw'.rewind.2.2
  have h1 := (C35_array_capacity z cap (ops ++ [.rewind]) v).1.2 (by omega)
  refine ⟨h1, ?_⟩
  have hc : (run (initArray z cap) (ops ++ [.rewind, .add v])).contents = [v] := by
    have : run (initArray z cap) (ops ++ [.rewind, .add v]) = ((run (initArray z cap) (ops ++ [.rewind])).add v).2 := by
      simp [run, List.foldl_append, step]
    rw [this]
    obtain ⟨c, n, i, e, l, m⟩ := array_shape (ops ++ [.rewind]) (List.replicate cap z) 0 0 (Nat.zero_le _)
    have e : run (initArray z cap) (ops ++ [.rewind]) = arr false c n i := e
    rw [e] at hp h1 ⊢
    simp only [pos] at hp
    subst hp
    simp only [Data.add] at h1 ⊢
    split_ifs at h1 ⊢ with h2
    cases c with
    | nil => simp at h2
    | cons c cs => simp [contents]
  rw [← hc]; exact hw.shows

/-- So the points are lost: three points are added, one remains. -/
example : (run (initArray 0 3) [.add 4, .add 5, .rewind, .add (6 : ℕ)]).Shows [6] :=
  (C35_array_rewind_add 0 3 (by decide) [.add 4, .add 5] 6).2

/-- Point sets that refer to an array or a list (and the empty kind): no history changes what is shown, and
additions are refused. -/
theorem C35_readonly (xs : List α) (ops : List (Op α)) (v : α) :
    (run (assignArray xs) ops).Shows xs ∧ (run (assignList xs) ops).Shows xs ∧
    ((run (assignArray xs) ops).add v).1 = false ∧ ((run (assignList xs) ops).add v).1 = false ∧
    (run dummy ops).Shows ([] : List α) := by
  have ha : ∀ (ops : List (Op α)) i, i ≤ xs.length → ∃ i', i' ≤ xs.length ∧
      run (arr true xs xs.length i) ops = arr true xs xs.length i' := by
    intro ops
    induction ops with
    | nil => intro i h; exact ⟨i, h, rfl⟩
    | cons op ops ih =>
      intro i h
      cases op with
      | add v => exact ih i h
      | rewind => exact ih 0 (Nat.zero_le _)
      | fetch =>
        have : ∃ i2, i2 ≤ xs.length ∧ (arr true xs xs.length i).fetch.2 = arr true xs xs.length i2 := by
          simp only [fetch, peek]
          by_cases h1 : i ≥ xs.length
          · rw [if_pos h1]; exact ⟨i, h, rfl⟩
          · rw [if_neg h1, List.getElem?_eq_getElem (by omega)]; exact ⟨i + 1, by omega, rfl⟩
        obtain ⟨i2, h2, e⟩ := this
        obtain ⟨i3, h3, e'⟩ := ih i2 h2
        refine ⟨i3, h3, ?_⟩
        rw [← e', run, List.foldl_cons]
        exact congrArg (List.foldl step · ops) e
  have hl : ∀ (ops : List (Op α)) c, ∃ c', run (lst true xs c) ops = lst true xs c' := by
    intro ops
    induction ops with
    | nil => intro c; exact ⟨c, rfl⟩
    | cons op ops ih =>
      intro c
      cases op with
      | add v => exact ih c
      | rewind => exact ih _
      | fetch =>
        have : ∃ c2, (lst true xs c).fetch.2 = lst true xs c2 := by
          unfold fetch
          cases peek (lst true xs c) with
          | none => exact ⟨c, rfl⟩
          | some v => cases c <;> exact ⟨_, rfl⟩
        obtain ⟨c2, e⟩ := this
        obtain ⟨c3, e'⟩ := ih c2
        refine ⟨c3, ?_⟩
        rw [← e', run, List.foldl_cons]
        exact congrArg (List.foldl step · ops) e
  have hd : ∀ (ops : List (Op α)), run dummy ops = dummy := by
    intro ops
    induction ops with
    | nil => rfl
    | cons op ops ih => cases op <;> exact ih
  obtain ⟨i, hi, e1⟩ := ha ops 0 (Nat.zero_le _)
  have e1 : run (assignArray xs) ops = _ := e1
  obtain ⟨c, e2⟩ := hl ops (if xs = [] then none else some 0)
  have e2 : run (assignList xs) ops = _ := e2
  have w1 : (run (assignArray xs) ops).WF := WF.run (d := assignArray xs) ⟨le_rfl, Nat.zero_le _⟩ _
  have w2 : (run (assignList xs) ops).WF := WF.run (d := assignList xs)
    (WF.rewind (d := lst true xs none) (by intro k hk; cases hk)).1 _
  refine ⟨?_, ?_, ?_, ?_, ?_⟩
  · have := w1.shows
    rwa [show (run (assignArray xs) ops).contents = xs by rw [e1]; exact List.take_length] at this
  · have := w2.shows
    rwa [show (run (assignList xs) ops).contents = xs by rw [e2]; rfl] at this
  · rw [e1]; rfl
  · rw [e2]; rfl
  · rw [hd]; exact WF.shows (d := dummy) trivial

/-- A list that has not been rewound since its creation shows nothing, and a cursor that has run past the end
does not see later additions: rewinding is required before fetching. -/
theorem C35_list_needs_rewind (xs : List α) (n : ℕ) :
    fetches n (run initList (xs.map .add)) = List.replicate n none := by
  have h : ∀ ys : List α, run (lst false ys none) (xs.map .add) = lst false (ys ++ xs) none := by
    induction xs with
    | nil => intro ys; simp [run]
    | cons x xs ih =>
      intro ys
      rw [List.append_cons, ← ih]; rfl
  have h0 : run initList (xs.map .add) = lst false xs none := h []
  rw [h0]
  induction n with
  | zero => rfl
  | succ n ih => rw [fetches, List.replicate_succ, ← ih]; rfl

/-- The loop `rewind; while( v = fetch )` used by all whole-set operations visits exactly the shown points, in
order, on every well-formed point set, and leaves what is shown unchanged. -/
theorem C35_loop {σ : Type*} (f : σ → α → σ) (d : Data α) (h : d.WF) (s : σ) :
    ∃ xs, d.Shows xs ∧ (d.forEach f s).2 = xs.foldl f s ∧ (d.forEach f s).1.Shows xs := by
  obtain ⟨h1, h2, h3⟩ := h.forEach f s
  exact ⟨d.contents, h.shows, h1, h3 ▸ h2.shows⟩

/-- Every point set obtained from one of the constructors by any history is well-formed. -/
theorem C35_wf (ops : List (Op α)) (z : α) (cap : ℕ) (xs : List α) :
    (run initList ops).WF ∧ (run (initArray z cap) ops).WF ∧ (run (assignArray xs) ops).WF ∧
      (run (assignList xs) ops).WF :=
  ⟨initList_wf.run ops, WF.run (d := initArray z cap) ⟨Nat.zero_le _, le_rfl⟩ _,
   WF.run (d := assignArray xs) ⟨le_rfl, Nat.zero_le _⟩ _,
   WF.run (d := assignList xs) (WF.rewind (d := lst true xs none) (by intro k hk; cases hk)).1 _⟩

/-- `zVecXDDataToAddrList` makes a list of exactly the shown points. -/
theorem C35_toAddrList (d : Data α) (h : d.WF) : d.Shows d.toAddrList := by
  have : d.toAddrList = d.contents := by
    unfold toAddrList
    rw [(h.forEach _ _).1]
    simpa using foldl_append (fun v : α => v) d.contents []
  rw [this]; exact h.shows

/-- `zVec3DDataXform` makes the list of the transformed and scaled points, in order. -/
theorem C35_xform {K : Type*} [Field K] (f : Frame3 K) (k : K) (d : Data (Vec3 K)) (h : d.WF) :
    ∃ xs, d.Shows xs ∧ d.xform3 f k = xs.map (fun v => (f.xform v).mul k) := by
  refine ⟨d.contents, h.shows, ?_⟩
  unfold xform3 xformWith
  rw [(h.forEach _ _).1]
  simpa using foldl_append (fun v => (f.xform v).mul k) d.contents []

/-- `zVec3DDataFind` returns the first point that is component-wise within the tolerance of the query, and
NULL only if there is none. -/
theorem C35_find (τ : ℝ) (p : Vec3 ℝ) (d : Data (Vec3 ℝ)) (h : d.WF) :
    ∃ xs, d.Shows xs ∧
      ((d.find3 τ p = none ∧ ∀ v ∈ xs, ¬ (|p.x - v.x| ≤ τ ∧ |p.y - v.y| ≤ τ ∧ |p.z - v.z| ≤ τ)) ∨
       ∃ l v r, xs = l ++ v :: r ∧ d.find3 τ p = some v ∧ (|p.x - v.x| ≤ τ ∧ |p.y - v.y| ≤ τ ∧ |p.z - v.z| ≤ τ) ∧
         ∀ w ∈ l, ¬ (|p.x - w.x| ≤ τ ∧ |p.y - w.y| ≤ τ ∧ |p.z - w.z| ≤ τ)) := by
  classical
  refine ⟨d.contents, h.shows, ?_⟩
  have hf : d.find3 τ p = d.contents.find? (fun v => decide (Vec3.equal τ p v)) := find_eq _ h
  rw [hf]
  rcases hq : d.contents.find? (fun v => decide (Vec3.equal τ p v)) with _ | v
  · left
    refine ⟨rfl, ?_⟩
    intro v hv
    have := List.find?_eq_none.1 hq v hv
    exact fun hc => this (decide_eq_true hc)
  · right
    obtain ⟨hv, l, r, e, hl⟩ := List.find?_eq_some_iff_append.1 hq
    refine ⟨l, v, r, e, rfl, ?_, ?_⟩
    · exact @of_decide_eq_true _ (Classical.propDecidable _) hv
    · intro w hw
      have := hl w hw
      intro hc
      have hc' : decide (Vec3.equal τ p w) = true := decide_eq_true hc
      simp [hc'] at this

end Zeo

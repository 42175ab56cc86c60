import Verif.Lemmas.QHWalk

/-! # The loop of the horizon -/

namespace Zeo.QHMesh
noncomputable section
open Classical QHGeom Spec QH

variable {τ : ℝ} {pos ps : ℕ → Vec3 ℝ} {K : Vec3 ℝ} {N : ℕ} {q q1 : QH} {F : Finset ℕ} {T : ℕ → Prop} {o m : ℕ}
  {R : ℕ → ℕ × Fin 3} {nx pv : ℕ → Option ℕ} {r0 : ℕ × Fin 3} {j : ℕ}

/-- The half-edge the walk is at after `k` steps. -/
def at' (ps : ℕ → Vec3 ℝ) (q : QH) (o : ℕ) (r0 : ℕ × Fin 3) (k : ℕ) : ℕ × Fin 3 :=
  (step (C q) (Vis ps (P q) o))^[k] r0

theorem at_succ (ps : ℕ → Vec3 ℝ) (q : QH) (o : ℕ) (r0 : ℕ × Fin 3) (k : ℕ) :
    at' ps q o r0 (k + 1) = step (C q) (Vis ps (P q) o) (at' ps q o r0 k) := Function.iterate_succ_apply' _ _ _

/-- Invariant of the loop: `j` steps were made, `m` ridges were met. -/
structure Walk (τ : ℝ) (pos ps : ℕ → Vec3 ℝ) (q q1 : QH) (F : Finset ℕ) (o : ℕ) (r0 : ℕ × Fin 3) (j m : ℕ)
    (R : ℕ → ℕ × Fin 3) (nx pv : ℕ → Option ℕ) : Prop where
  part : Part τ pos q q1 F o m R nx pv
  mpos : 0 < m
  ridge : ∀ i < m, Ridge F (C q) (Vis ps (P q) o) (R i)
  first : R 0 = r0
  time : ∀ i < m, ∃ k < j, R i = at' ps q o r0 k
  inj : ∀ i < m, ∀ i' < m, R i = R i' → i = i'
  chain : ∀ i, i + 1 < m → tgt (P q) (R i) = src (P q) (R (i + 1))
  last : tgt (P q) (R (m - 1)) = src (P q) (at' ps q o r0 j)
  nx : ∀ i, i + 1 < m → nx i = some (q.nf + (i + 1))
  pv : ∀ i, i + 1 < m → pv (i + 1) = some (q.nf + i)

/-- The period of the walk. -/
abbrev period (ps : ℕ → Vec3 ℝ) (q : QH) (o : ℕ) (r0 : ℕ × Fin 3) : ℕ :=
  Function.minimalPeriod (step (C q) (Vis ps (P q) o)) r0

theorem Walk.fresh (w : Walk τ pos ps q q1 F o r0 j m R nx pv) (hj : j < period ps q o r0) :
    ∀ i < m, R i ≠ at' ps q o r0 j := by
  intro i hi e
  obtain ⟨k, hk, e'⟩ := w.time i hi
  have := Function.iterate_injOn_Iio_minimalPeriod (f := step (C q) (Vis ps (P q) o)) (x := r0)
    (Set.mem_Iio.2 (hk.trans hj)) (Set.mem_Iio.2 hj) (e'.symm.trans e)
  omega

theorem at_mem (h : Start τ pos ps K N q F T o) (hr : Ridge F (C q) (Vis ps (P q) o) r0) (k : ℕ) :
    (at' ps q o r0 k).1 ∈ F ∧ Vis ps (P q) o (at' ps q o r0 k).1 := h.st.cx.iter_mem hr.1 hr.2.1 k

/-- Reading the neighbour of a visible facet during the walk. -/
theorem Part.read (h : Start τ pos ps K N q F T o) (hp : Part τ pos q q1 F o m R nx pv)
    (hR : ∀ i < m, Ridge F (C q) (Vis ps (P q) o) (R i)) {f : ℕ} (hf : f ∈ F) (hv : Vis ps (P q) o f) (s : Fin 3) :
    (q1.fac f).c s = some (opp (C q) (f, s)).1 := by
  rw [hp.keep f hf s]
  · exact (h.st.cx.opp_spec (r := (f, s)) hf).2.1
  · intro i hi e
    have h1 := (hR i hi).2.2
    rw [e, h.st.cx.opp_opp (r := (f, s)) hf] at h1
    exact h1 hv

theorem Part.readVis (h : Start τ pos ps K N q F T o) (hp : Part τ pos q q1 F o m R nx pv)
    (hR : ∀ i < m, Ridge F (C q) (Vis ps (P q) o) (R i)) {f : ℕ} (hf : f ∈ F) (hv : Vis ps (P q) o f) (s : Fin 3) :
    sideVisible q1 f s = some (decide (Vis ps (P q) o (opp (C q) (f, s)).1)) := by
  unfold sideVisible
  rw [hp.read h hR hf hv s, Option.map_some]
  have hg := (h.st.cx.opp_spec (r := (f, s)) hf).1
  rw [hp.old _ hg]
  exact congrArg some (h.vis _ hg)

theorem Part.readContig (h : Start τ pos ps K N q F T o) (hp : Part τ pos q q1 F o m R nx pv)
    (hR : ∀ i < m, Ridge F (C q) (Vis ps (P q) o) (R i)) {r : ℕ × Fin 3} (hf : r.1 ∈ F) (hv : Vis ps (P q) o r.1)
    (hg : Vis ps (P q) o (opp (C q) r).1) : contigID q1 r.1 r.2 = some (opp (C q) r).2 := by
  obtain ⟨og, oc, ob, -⟩ := h.st.cx.opp_spec hf
  unfold contigID
  rw [hp.read h hR hf hv r.2, Option.bind_some]
  have : ∀ t', (q1.fac (opp (C q) r).1).c t' = some r.1 ↔ t' = (opp (C q) r).2 := by
    intro t'
    rw [hp.read h hR og hg t', ← (h.st.cx.opp_spec (r := ((opp (C q) r).1, t')) og).2.1]
    exact ob t'
  have hc : C q r.1 r.2 = some (opp (C q) r).1 := oc
  show (if (q1.fac (opp (C q) (r.1, r.2)).1).c 0 = some r.1 then _ else _) = _
  simp only [Prod.mk.eta, this]
  exact pick3 _

/-- The step through a visible facet. -/
theorem Walk.through (h : Start τ pos ps K N q F T o) (hr0 : Ridge F (C q) (Vis ps (P q) o) r0)
    (w : Walk τ pos ps q q1 F o r0 j m R nx pv) (hv : Vis ps (P q) o (opp (C q) (at' ps q o r0 j)).1) :
    Walk τ pos ps q q1 F o r0 (j + 1) m R nx pv := by
  refine ⟨w.part, w.mpos, w.ridge, w.first, ?_, w.inj, w.chain, ?_, w.nx, w.pv⟩
  · intro i hi
    obtain ⟨k, hk, e⟩ := w.time i hi
    exact ⟨k, by omega, e⟩
  · rw [at_succ, h.st.cx.step_src (at_mem h hr0 j).1, if_pos hv]
    exact w.last

/-- The step over a ridge. -/
theorem Walk.over (h : Start τ pos ps K N q F T o) (hr0 : Ridge F (C q) (Vis ps (P q) o) r0)
    (w : Walk τ pos ps q q1 F o r0 j m R nx pv) (hj : j < period ps q o r0)
    (hv : ¬ Vis ps (P q) o (opp (C q) (at' ps q o r0 j)).1) :
    ∃ q2 R' nx' pv', QH.newFacet τ pos q1 o (at' ps q o r0 j).1 (at' ps q o r0 j).2 = some (q2, q.nf + m) ∧
      Walk τ pos ps q (QH.bind τ pos q2 (q.nf + m) 2 (q.nf + (m - 1)) 1) F o r0 (j + 1) (m + 1) R' nx' pv' := by
  set r := at' ps q o r0 j with hr
  have hm := at_mem h hr0 j
  have hridge : Ridge F (C q) (Vis ps (P q) o) r := ⟨hm.1, hm.2, hv⟩
  obtain ⟨q2, e, hp⟩ := w.part.add h w.ridge hridge (w.fresh hj)
  have hmp := w.mpos
  set R' := Function.update R m r with hR'
  have hR'o : ∀ i < m, R' i = R i := fun i hi => Function.update_of_ne (by omega) _ _
  have hR'm : R' m = r := Function.update_self _ _ _
  have hfl := (cone_flag h (w.ridge (m - 1) (by omega)) hridge w.last (Function.update nx m none (m - 1))
    (Function.update pv m none (m - 1)) (Function.update nx m none m) (Function.update pv m none m)
    (q2.fac (q.nf + (m - 1))).merge (q2.fac (q.nf + m)).merge).1
  have hl := hp.link h (i := m - 1) (j := m) (by omega) (by omega) (by omega)
    (f1 := q.nf + m) (f2 := q.nf + (m - 1)) (s1 := 2) (s2 := 1) (Or.inr ⟨rfl, rfl, rfl, rfl⟩) (by
      rw [hp.new m (by omega), hp.new (m - 1) (by omega)]
      rw [hR'm, hR'o (m - 1) (by omega)]
      exact hfl)
  refine ⟨q2, R', _, _, e, hl, by omega, ?_, ?_, ?_, ?_, ?_, ?_, ?_, ?_⟩
  · intro i hi
    by_cases him : i = m
    · rw [him, hR'm]; exact hridge
    · rw [hR'o i (by omega)]; exact w.ridge i (by omega)
  · rw [hR'o 0 hmp]; exact w.first
  · intro i hi
    by_cases him : i = m
    · exact ⟨j, by omega, by rw [him, hR'm]⟩
    · obtain ⟨k, hk, e⟩ := w.time i (by omega)
      exact ⟨k, by omega, by rw [hR'o i (by omega)]; exact e⟩
  · intro i hi i' hi' e
    by_cases him : i = m
    · by_cases him' : i' = m
      · rw [him, him']
      · rw [him, hR'm, hR'o i' (by omega)] at e
        exact absurd e.symm (w.fresh hj i' (by omega))
    · by_cases him' : i' = m
      · rw [him', hR'm, hR'o i (by omega)] at e
        exact absurd e (w.fresh hj i (by omega))
      · rw [hR'o i (by omega), hR'o i' (by omega)] at e
        exact w.inj i (by omega) i' (by omega) e
  · intro i hi
    by_cases him : i + 1 = m
    · rw [him, hR'm, hR'o i (by omega)]
      rw [← w.last]
      congr 2; omega
    · rw [hR'o i (by omega), hR'o (i + 1) (by omega)]
      exact w.chain i (by omega)
  · rw [Nat.add_sub_cancel, hR'm, at_succ, h.st.cx.step_src hm.1, if_neg hv]
  · intro i hi
    by_cases him : i = m - 1
    · rw [him, Function.update_self]; congr 2; omega
    · rw [Function.update_of_ne him, Function.update_of_ne (by omega)]
      exact w.nx i (by omega)
  · intro i hi
    by_cases him : i + 1 = m
    · rw [him, Function.update_self]; congr 2; omega
    · rw [Function.update_of_ne him, Function.update_of_ne him]
      exact w.pv i (by omega)

/-- The cells of the cone. -/
def cells (b m : ℕ) : List ℕ := (List.range m).map (b + ·)

theorem cells_succ (b m : ℕ) : cells b (m + 1) = cells b m ++ [b + m] := by
  unfold cells; rw [List.range_succ, List.map_append]; rfl

/-- The loop ends back at the first vertex of the first ridge. -/
theorem Walk.loop (h : Start τ pos ps K N q F T o) (hr0 : Ridge F (C q) (Vis ps (P q) o) r0) (k : ℕ) :
    ∀ {q1 : QH} {j m : ℕ} {R : ℕ → ℕ × Fin 3} {nx pv : ℕ → Option ℕ}, Walk τ pos ps q q1 F o r0 j m R nx pv →
      j < period ps q o r0 → period ps q o r0 ≤ k + j →
      ∃ q' m' R' nx' pv' j', horizonLoop τ pos o (src (P q) r0) k q1 (at' ps q o r0 j).1 (at' ps q o r0 j).2
          (cells q.nf m) (q.nf + (m - 1)) = some (q', cells q.nf m', q.nf + (m' - 1)) ∧
        Walk τ pos ps q q' F o r0 j' m' R' nx' pv' ∧ src (P q) (at' ps q o r0 j') = src (P q) r0 := by
  induction k with
  | zero => intro q1 j m R nx pv _ h1 h2; omega
  | succ k ih =>
    intro q1 j m R nx pv w hj hk
    have hm := at_mem h hr0 j
    have hend : j + 1 = period ps q o r0 → src (P q) (at' ps q o r0 (j + 1)) = src (P q) r0 := by
      intro e
      unfold at'
      rw [e, Function.iterate_minimalPeriod]
    unfold horizonLoop
    rw [w.part.readVis h w.ridge hm.1 hm.2, w.part.read h w.ridge hm.1 hm.2]
    simp only [Prod.mk.eta]
    by_cases hv : Vis ps (P q) o (opp (C q) (at' ps q o r0 j)).1
    · have w' := w.through h hr0 hv
      have hn : at' ps q o r0 (j + 1) = ((opp (C q) (at' ps q o r0 j)).1, (opp (C q) (at' ps q o r0 j)).2 + 1) := by
        rw [at_succ]; unfold step; rw [if_pos hv]
      have hs : (q1.fac (opp (C q) (at' ps q o r0 j)).1).p ((opp (C q) (at' ps q o r0 j)).2 + 1 + 1) =
          src (P q) (at' ps q o r0 (j + 1)) := by
        rw [hn, w.part.old _ (h.st.cx.opp_spec hm.1).1]; rfl
      simp only [hv, decide_true, w.part.readContig h w.ridge hm.1 hm.2 hv, hs]
      by_cases hc : src (P q) (at' ps q o r0 (j + 1)) = src (P q) r0
      · rw [if_pos hc]
        exact ⟨q1, m, R, nx, pv, j + 1, rfl, w', hc⟩
      · rw [if_neg hc]
        have hj1 : j + 1 < period ps q o r0 := by
          rcases Nat.lt_or_ge (j + 1) (period ps q o r0) with h1 | h1
          · exact h1
          · exact absurd (hend (by omega)) hc
        have := ih w' hj1 (by omega)
        rw [hn] at this
        exact this
    · obtain ⟨q2, R', nx', pv', e, w'⟩ := w.over h hr0 hj hv
      have hn : at' ps q o r0 (j + 1) = ((at' ps q o r0 j).1, (at' ps q o r0 j).2 + 1) := by
        rw [at_succ]; unfold step; rw [if_neg hv]
      have hs : ((QH.bind τ pos q2 (q.nf + m) 2 (q.nf + (m - 1)) 1).fac (at' ps q o r0 j).1).p
          ((at' ps q o r0 j).2 + 1 + 1) = src (P q) (at' ps q o r0 (j + 1)) := by
        rw [hn, w'.part.old _ hm.1]; rfl
      simp only [hv, decide_false, e, hs, ← cells_succ]
      by_cases hc : src (P q) (at' ps q o r0 (j + 1)) = src (P q) r0
      · rw [if_pos hc]
        exact ⟨_, m + 1, R', nx', pv', j + 1, rfl, w', hc⟩
      · rw [if_neg hc]
        have hj1 : j + 1 < period ps q o r0 := by
          rcases Nat.lt_or_ge (j + 1) (period ps q o r0) with h1 | h1
          · exact h1
          · exact absurd (hend (by omega)) hc
        have := ih w' hj1 (by omega)
        rw [hn] at this
        exact this

/-- The state after the whole horizon was dealt with. -/
structure Coned (τ : ℝ) (pos ps : ℕ → Vec3 ℝ) (q q' : QH) (F : Finset ℕ) (o m : ℕ) (R : ℕ → ℕ × Fin 3) : Prop where
  mtwo : 1 < m
  ridge : ∀ i < m, Ridge F (C q) (Vis ps (P q) o) (R i)
  inj : ∀ i < m, ∀ i' < m, R i = R i' → i = i'
  chain : ∀ i, i + 1 < m → tgt (P q) (R i) = src (P q) (R (i + 1))
  close : tgt (P q) (R (m - 1)) = src (P q) (R 0)
  part : ∃ nx pv, Part τ pos q q' F o m R nx pv ∧
    (∀ i < m, nx i = some (q.nf + (if i + 1 < m then i + 1 else 0))) ∧
    (∀ i < m, pv i = some (q.nf + (if i = 0 then m - 1 else i - 1)))

theorem firstRidge_spec (h : Start τ pos ps K N q F T o) (vs : List ℕ) (hvs : ∀ f, f ∈ vs ↔ f ∈ F ∧ Vis ps (P q) o f)
    {f : ℕ} (hf : f ∈ vs) : ∃ r, firstRidge q vs = some r ∧ Ridge F (C q) (Vis ps (P q) o) r := by
  have hp : Part τ pos q q F o 0 (fun _ => (0, 0)) (fun _ => none) (fun _ => none) :=
    ⟨rfl, rfl, rfl, fun _ _ => rfl, fun _ _ _ _ => rfl, fun _ _ _ i hi => by omega, fun i hi => by omega,
      fun v => by simp, h.mrg0⟩
  have hvis : ∀ f ∈ vs, ∀ s, sideVisible q f s = some (decide (Vis ps (P q) o (opp (C q) (f, s)).1)) :=
    fun f hf s => hp.readVis h (fun i hi => by omega) ((hvs f).1 hf).1 ((hvs f).1 hf).2 s
  have hmem : ∀ r : ℕ × Fin 3, r ∈ (vs.flatMap fun f => [(f, (0 : Fin 3)), (f, 1), (f, 2)]) ↔ r.1 ∈ vs := by
    rintro ⟨f, s⟩
    simp only [List.mem_flatMap, List.mem_cons, List.not_mem_nil, or_false, Prod.mk.injEq]
    constructor
    · rintro ⟨a, ha, h | h | h⟩ <;> exact h.1 ▸ ha
    · intro hf
      refine ⟨f, hf, ?_⟩
      fin_cases s <;> simp
  unfold firstRidge
  cases e : (vs.flatMap fun f => [(f, (0 : Fin 3)), (f, 1), (f, 2)]).find? fun r => sideVisible q r.1 r.2 = some false with
  | none =>
    exfalso
    rw [List.find?_eq_none] at e
    obtain ⟨r, hr⟩ := h.st.exists_ridge ((hvs f).1 hf).1 ((hvs f).1 hf).2
    have := e r ((hmem r).2 ((hvs _).2 ⟨hr.1, hr.2.1⟩))
    rw [hvis r.1 ((hvs _).2 ⟨hr.1, hr.2.1⟩) r.2] at this
    have hr2 : ¬ Vis ps (P q) o (opp (C q) (r.1, r.2)).1 := hr.2.2
    simp [hr2] at this
  | some r =>
    have h1 := List.mem_of_find?_eq_some e
    have h2 := List.find?_some e
    rw [hmem] at h1
    rw [decide_eq_true_eq, hvis r.1 h1 r.2] at h2
    have h3 := decide_eq_false_iff_not.1 (Option.some.inj h2)
    exact ⟨r, rfl, ((hvs _).1 h1).1, ((hvs _).1 h1).2, h3⟩

/-- The horizon is found and followed all around. -/
theorem horizon_spec (h : Start τ pos ps K N q F T o) (vs : List ℕ) (hvs : ∀ f, f ∈ vs ↔ f ∈ F ∧ Vis ps (P q) o f)
    (hnd : vs.Nodup) {f : ℕ} (hf : f ∈ vs) :
    ∃ q' m R, horizon τ pos q vs o = some (q', cells q.nf m) ∧ Coned τ pos ps q q' F o m R := by
  obtain ⟨r0, e0, hr0⟩ := firstRidge_spec h vs hvs hf
  have hp : Part τ pos q q F o 0 (fun _ => (0, 0)) (fun _ => none) (fun _ => none) :=
    ⟨rfl, rfl, rfl, fun _ _ => rfl, fun _ _ _ _ => rfl, fun _ _ _ i hi => by omega, fun i hi => by omega,
      fun v => by simp, h.mrg0⟩
  obtain ⟨q1, e1, hp1⟩ := hp.add h (fun i hi => by omega) hr0 (fun i hi => by omega)
  obtain ⟨hpos, hle⟩ := h.st.cx.periodic (V := Vis ps (P q) o) hr0.1 hr0.2.1
  have hcard : (F.filter (Vis ps (P q) o)).card = vs.length := by
    rw [← List.toFinset_card_of_nodup hnd]
    congr 1
    ext f
    rw [Finset.mem_filter, List.mem_toFinset, hvs]
  have hstep0 : at' ps q o r0 1 = (r0.1, r0.2 + 1) := by
    show step (C q) (Vis ps (P q) o) r0 = _
    unfold step; rw [if_neg hr0.2.2]
  have hper1 : 1 < period ps q o r0 := by
    rcases Nat.lt_or_ge 1 (period ps q o r0) with h1 | h1
    · exact h1
    · exfalso
      have : period ps q o r0 = 1 := le_antisymm h1 hpos
      have e := Function.iterate_minimalPeriod (f := step (C q) (Vis ps (P q) o)) (x := r0)
      rw [show Function.minimalPeriod (step (C q) (Vis ps (P q) o)) r0 = 1 from this] at e
      have e' : at' ps q o r0 1 = r0 := e
      rw [hstep0] at e'
      have := congrArg Prod.snd e'
      exact ne1 r0.2 this.symm
  have w1 : Walk τ pos ps q q1 F o r0 1 1 (Function.update (fun _ => (0, 0)) 0 r0) (Function.update (fun _ => none) 0 none)
      (Function.update (fun _ => none) 0 none) := by
    refine ⟨hp1, by omega, ?_, Function.update_self _ _ _, ?_, ?_, ?_, ?_, ?_, ?_⟩
    · intro i hi
      obtain rfl : i = 0 := by omega
      rw [Function.update_self]; exact hr0
    · intro i hi
      obtain rfl : i = 0 := by omega
      exact ⟨0, by omega, by rw [Function.update_self]; rfl⟩
    · intro i hi i' hi' _; omega
    · intro i hi; omega
    · rw [hstep0]
      simp only [Nat.sub_self, Function.update_self, src, tgt, f11]
    · intro i hi; omega
    · intro i hi; omega
  obtain ⟨q2, m, R, nx, pv, j, e2, w, hend⟩ := w1.loop h hr0 (vs.length * 3 + 1) hper1 (by
    have : period ps q o r0 ≤ vs.length * 3 := by rw [← hcard]; exact hle
    omega)
  have hmpos := w.mpos
  have hclose : tgt (P q) (R (m - 1)) = src (P q) (R 0) := by rw [w.last, hend, w.first]
  have hm2 : 1 < m := by
    by_contra hc
    obtain rfl : m = 1 := by omega
    exact h.st.ridge_ne (w.ridge 0 (by omega)) hclose.symm
  have hfl := (cone_flag h (w.ridge (m - 1) (by omega)) (w.ridge 0 hmpos) hclose (nx (m - 1)) (pv (m - 1)) (nx 0)
    (pv 0) (q2.fac (q.nf + (m - 1))).merge (q2.fac (q.nf + 0)).merge).2
  have hl := w.part.link h (i := m - 1) (j := 0) (by omega) (by omega) (by omega) (f1 := q.nf + (m - 1)) (f2 := q.nf)
    (s1 := 1) (s2 := 2) (Or.inl ⟨rfl, rfl, rfl, rfl⟩) (by
      have e0 := w.part.new 0 hmpos
      rw [Nat.add_zero] at e0
      rw [w.part.new (m - 1) (by omega), e0]
      exact hfl)
  refine ⟨QH.bind τ pos q2 (q.nf + (m - 1)) 1 q.nf 2, m, R, ?_, hm2, w.ridge, w.inj, w.chain, hclose, _, _, hl, ?_, ?_⟩
  · unfold horizon
    rw [e0, Option.bind_some, e1, Option.bind_some]
    rw [hstep0] at e2
    have hsrc : (q1.fac r0.1).p (r0.2 + 1) = src (P q) r0 := by rw [hp1.old _ hr0.1]; rfl
    have e2' : horizonLoop τ pos o ((q1.fac r0.1).p (r0.2 + 1)) (vs.length * 3 + 1) q1 r0.1 (r0.2 + 1) [q.nf] q.nf =
        some (q2, cells q.nf m, q.nf + (m - 1)) := by rw [hsrc]; exact e2
    simp only [Nat.add_zero, e2', Option.map_some]
  · intro i hi
    by_cases him : i = m - 1
    · rw [him, Function.update_self, if_neg (by omega)]
    · rw [Function.update_of_ne him, w.nx i (by omega), if_pos (by omega)]
  · intro i hi
    by_cases him : i = 0
    · rw [him, Function.update_self, if_pos rfl]
    · rw [Function.update_of_ne him, if_neg him]
      have := w.pv (i - 1) (by omega)
      rw [Nat.sub_add_cancel (by omega)] at this
      exact this

end
end Zeo.QHMesh

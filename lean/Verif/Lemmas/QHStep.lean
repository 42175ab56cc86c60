import Verif.Lemmas.QHInc
import Verif.Lemmas.QHCover

/-! # One step keeps the invariant -/

namespace Zeo.QHMesh
noncomputable section
open Classical QHGeom Spec QH

variable {τ : ℝ} {pos ps : ℕ → Vec3 ℝ} {K : Vec3 ℝ} {N : ℕ} {q q' : QH} {x m : ℕ} {R : ℕ → ℕ × Fin 3} {pl : List ℕ}

theorem Next.mem (n : Next τ pos ps q q' x m R pl) (i : ℕ) :
    i ∈ q'.fl ↔ (i ∈ q.fl ∧ ¬ Vis ps (P q) x i) ∨ ∃ k < m, i = q.nf + k := by
  rw [n.fl, List.mem_append, mem_cells, List.mem_filter]
  simp

theorem Next.oldP (n : Next τ pos ps q q' x m R pl) {f : ℕ} (hf : f ∈ q.fl) (hv : ¬ Vis ps (P q) x f) : P q' f = P q f := by
  unfold P; rw [n.old f hf hv]

theorem Next.newP (n : Next τ pos ps q q' x m R pl) {i : ℕ} (hi : i < m) :
    P q' (q.nf + i) = ![x, src (P q) (R i), tgt (P q) (R i)] := by
  show (q'.fac (q.nf + i)).p = _
  rw [n.new i hi]; rfl

theorem Next.newC (n : Next τ pos ps q q' x m R pl) {i : ℕ} (hi : i < m) :
    C q' (q.nf + i) = ![some (opp (C q) (R i)).1, some (q.nf + (if i + 1 < m then i + 1 else 0)),
      some (q.nf + (if i = 0 then m - 1 else i - 1))] := by
  show (q'.fac (q.nf + i)).c = _
  rw [n.new i hi]; rfl

theorem Next.cyc (n : Next τ pos ps q q' x m R pl) {i : ℕ} (hi : i < m) :
    (if i + 1 < m then i + 1 else 0) < m ∧ tgt (P q) (R i) = src (P q) (R (if i + 1 < m then i + 1 else 0)) := by
  split
  · rename_i h; exact ⟨h, n.chain i h⟩
  · rename_i h
    have : i = m - 1 := by omega
    exact ⟨by omega, by rw [this]; exact n.close⟩

theorem Next.cyc' (n : Next τ pos ps q q' x m R pl) {i : ℕ} (hi : i < m) :
    (if i = 0 then m - 1 else i - 1) < m ∧
      (if (if i = 0 then m - 1 else i - 1) + 1 < m then (if i = 0 then m - 1 else i - 1) + 1 else 0) = i := by
  have := n.mtwo
  split
  · constructor
    · omega
    · rw [if_neg (by omega)]; omega
  · constructor
    · omega
    · rw [if_pos (by omega)]; omega

theorem Next.cyc'' (n : Next τ pos ps q q' x m R pl) {i : ℕ} (hi : i < m) :
    (if (if i + 1 < m then i + 1 else 0) = 0 then m - 1 else (if i + 1 < m then i + 1 else 0) - 1) = i := by
  have := n.mtwo
  by_cases h : i + 1 < m
  · rw [if_pos h, if_neg (by omega)]; omega
  · rw [if_neg h, if_pos rfl]; omega

theorem Next.complex (n : Next τ pos ps q q' x m R pl) (hlt : ∀ f ∈ q.fl, f < q.nf)
    {T : ℕ → Prop} (hst : Setting ps q.fl.toFinset (P q) (C q) T x) :
    Complex q'.fl.toFinset (P q') (C q') := by
  have hne : ∀ f ∈ q.fl, ∀ s, P q f s ≠ x := fun f hf s e =>
    hst.new (e ▸ hst.corner f (List.mem_toFinset.2 hf) s)
  have hsrc : ∀ i < m, src (P q) (R i) ≠ x := fun i hi => hne _ (List.mem_toFinset.1 (n.ridge i hi).1) _
  have htgt : ∀ i < m, tgt (P q) (R i) ≠ x := fun i hi => hne _ (List.mem_toFinset.1 (n.ridge i hi).1) _
  constructor
  · intro f hf
    rw [List.mem_toFinset, n.mem] at hf
    rcases hf with ⟨hf, hv⟩ | ⟨i, hi, rfl⟩
    · rw [n.oldP hf hv]; exact hst.cx.inj f (List.mem_toFinset.2 hf)
    · rw [n.newP hi]
      exact inj3 (hsrc i hi).symm (htgt i hi).symm (hst.ridge_ne (n.ridge i hi))
  · intro f hf s
    rw [List.mem_toFinset, n.mem] at hf
    rcases hf with ⟨hf, hv⟩ | ⟨i, hi, rfl⟩
    · have hfF : f ∈ q.fl.toFinset := List.mem_toFinset.2 hf
      obtain ⟨og, oc, ob, os, ot, on⟩ := hst.cx.opp_spec (r := (f, s)) hfF
      have hoo := hst.cx.opp_opp (r := (f, s)) hfF
      by_cases hg : Vis ps (P q) x (opp (C q) (f, s)).1
      · obtain ⟨k, hk, hR⟩ := hst.complete R m (by have := n.mtwo; omega) n.ridge n.chain n.close
          (r := opp (C q) (f, s)) ⟨og, hg, by rw [hoo]; exact hv⟩
        refine ⟨q.nf + k, List.mem_toFinset.2 ((n.mem _).2 (Or.inr ⟨k, hk, rfl⟩)), 0, n.turn f hf hv s k hk hR, ?_, ?_, ?_, ?_⟩
        · rw [n.newC hk, hR, hoo]; rfl
        · rw [n.newP hk, n.oldP hf hv, hR]; exact os
        · rw [n.newP hk, n.oldP hf hv, hR]; exact ot
        · rw [n.newP hk, n.oldP hf hv]; exact (hne f hf s).symm
      · refine ⟨(opp (C q) (f, s)).1, List.mem_toFinset.2 ((n.mem _).2 (Or.inl ⟨List.mem_toFinset.1 og, hg⟩)),
          (opp (C q) (f, s)).2, ?_, ?_, ?_, ?_, ?_⟩
        · rw [n.keep f hf hv s fun i hi e => hg (e ▸ (n.ridge i hi).2.1)]
          exact oc
        · have : ∀ i < m, R i ≠ opp (C q) ((opp (C q) (f, s)).1, (opp (C q) (f, s)).2) := by
            intro i hi e
            have e' : R i = (f, s) := e.trans hoo
            have := (n.ridge i hi).2.1
            rw [e'] at this
            exact hv this
          rw [n.keep _ (List.mem_toFinset.1 og) hg _ this]
          exact (ob _).2 rfl
        · rw [n.oldP hf hv, n.oldP (List.mem_toFinset.1 og) hg]; exact os
        · rw [n.oldP hf hv, n.oldP (List.mem_toFinset.1 og) hg]; exact ot
        · rw [n.oldP hf hv, n.oldP (List.mem_toFinset.1 og) hg]; exact on
    · have hr := n.ridge i hi
      obtain ⟨og, oc, ob, os, ot, on⟩ := hst.cx.opp_spec hr.1
      have hoo := hst.cx.opp_opp hr.1
      have hmemc : ∀ k < m, q.nf + k ∈ q'.fl.toFinset := fun k hk =>
        List.mem_toFinset.2 ((n.mem _).2 (Or.inr ⟨k, hk, rfl⟩))
      have hog := List.mem_toFinset.1 og
      fin_cases s
      · refine ⟨(opp (C q) (R i)).1, List.mem_toFinset.2 ((n.mem _).2 (Or.inl ⟨hog, hr.2.2⟩)),
          (opp (C q) (R i)).2, ?_, ?_, ?_, ?_, ?_⟩
        · rw [n.newC hi]; rfl
        · exact n.turn _ hog hr.2.2 _ i hi hoo.symm
        · rw [n.newP hi, n.oldP hog hr.2.2]; exact os
        · rw [n.newP hi, n.oldP hog hr.2.2]; exact ot
        · rw [n.newP hi, n.oldP hog hr.2.2]; exact hne _ hog _
      · obtain ⟨hk, e⟩ := n.cyc hi
        have e2 := n.cyc'' hi
        set k := if i + 1 < m then i + 1 else 0 with hkd
        refine ⟨q.nf + k, hmemc k hk, 2, ?_, ?_, ?_, ?_, ?_⟩
        · rw [n.newC hi]; rfl
        · rw [n.newC hk, e2]; rfl
        · rw [n.newP hi, n.newP hk]; rfl
        · rw [n.newP hi, n.newP hk]; exact e.symm
        · rw [n.newP hi, n.newP hk]
          exact hst.no_return hr (n.ridge k hk) e
      · obtain ⟨hk, e⟩ := n.cyc' hi
        have e2 := (n.cyc hk).2
        set k := if i = 0 then m - 1 else i - 1 with hkd
        rw [e] at e2
        refine ⟨q.nf + k, hmemc k hk, 1, ?_, ?_, ?_, ?_, ?_⟩
        · rw [n.newC hi]; rfl
        · rw [n.newC hk, e]; rfl
        · rw [n.newP hi, n.newP hk]; exact e2
        · rw [n.newP hi, n.newP hk]; rfl
        · rw [n.newP hi, n.newP hk]
          exact fun he => hst.no_return (n.ridge k hk) hr e2 he.symm
  · have mixed : ∀ f ∈ q.fl, ¬ Vis ps (P q) x f → ∀ i < m, ∀ s t, P q' f (s + 1) = P q' (q.nf + i) (t + 1) →
        P q' f (s + 2) = P q' (q.nf + i) (t + 2) → False := by
      intro f hf hv i hi s t e1 e2
      rw [n.oldP hf hv, n.newP hi] at e1 e2
      fin_cases t
      · have := hst.cx.uni f (List.mem_toFinset.2 hf) _ (n.ridge i hi).1 s (R i).2 e1 e2
        exact hv (this.1 ▸ (n.ridge i hi).2.1)
      · exact hne f hf _ e2
      · exact hne f hf _ e1
    intro f hf g hg s t e1 e2
    rw [List.mem_toFinset, n.mem] at hf hg
    rcases hf with ⟨hf, hv⟩ | ⟨i, hi, rfl⟩ <;> rcases hg with ⟨hg, hgv⟩ | ⟨j, hj, rfl⟩
    · rw [n.oldP hf hv, n.oldP hg hgv] at e1 e2
      exact hst.cx.uni f (List.mem_toFinset.2 hf) g (List.mem_toFinset.2 hg) s t e1 e2
    · exact (mixed f hf hv j hj s t e1 e2).elim
    · exact (mixed g hg hgv i hi t s e1.symm e2.symm).elim
    · rw [n.newP hi, n.newP hj] at e1 e2
      have fin : R i = R j → s = t → q.nf + i = q.nf + j ∧ s = t :=
        fun h1 h2 => ⟨by rw [n.inj i hi j hj h1], h2⟩
      fin_cases s <;> fin_cases t
      · exact fin (hst.src_inj (n.ridge i hi) (n.ridge j hj) e1) rfl
      · exact (htgt i hi e2).elim
      · exact (hsrc i hi e1).elim
      · exact (htgt j hj e2.symm).elim
      · exact fin (hst.tgt_inj (n.ridge i hi) (n.ridge j hj) e1) rfl
      · exact (htgt i hi e1).elim
      · exact (hsrc j hj e1.symm).elim
      · exact (htgt j hj e1.symm).elim
      · exact fin (hst.src_inj (n.ridge i hi) (n.ridge j hj) e2) rfl

/-- Points dealt with stay so. -/
theorem Next.done_mono (n : Next τ pos ps q q' x m R pl) {y : ℕ} (hy : Done N q y) : Done N q' y := by
  refine ⟨hy.1, fun f hf hm => ?_⟩
  rcases (n.mem f).1 hf with ⟨hf, hv⟩ | ⟨i, hi, rfl⟩
  · rw [n.old f hf hv] at hm
    exact hy.2 f hf hm
  · obtain ⟨-, g, hg, -, hyg⟩ := (n.mpl y).1 (n.opm i hi y hm).1
    exact hy.2 g hg hyg

theorem Next.done_new (n : Next τ pos ps q q' x m R pl) (h : Inv τ pos N K q) (hw : View pos ps q x) {f : ℕ} (hf : f ∈ q.fl) (hx : x ∈ (q.fac f).op) :
    Done N q' x := by
  refine ⟨(h.op f hf x hx).1, fun g hg hm => ?_⟩
  rcases (n.mem g).1 hg with ⟨hg, hv⟩ | ⟨i, hi, rfl⟩
  · rw [n.old g hg hv] at hm
    have := h.opdis g hg f hf x hm hx
    exact hv (this ▸ (hw.real f hf).2 (h.op f hf x hx).2)
  · exact ((n.mpl x).1 (n.opm i hi x hm).1).1 rfl

/-- Ridges are the same from all views. -/
theorem View.ridge {ps' : ℕ → Vec3 ℝ} (hw : View pos ps q x) (hw' : View pos ps' q x) {r : ℕ × Fin 3}
    (hr : Ridge q.fl.toFinset (C q) (Vis ps (P q) x) r) : Ridge q.fl.toFinset (C q) (Vis ps' (P q) x) r := by
  have og := (hw.st.cx.opp_spec hr.1).1
  refine ⟨hr.1, ?_, ?_⟩
  · exact (hw'.real _ (List.mem_toFinset.1 hr.1)).2 ((hw.real _ (List.mem_toFinset.1 hr.1)).1 hr.2.1)
  · exact fun hv => hr.2.2 ((hw.real _ (List.mem_toFinset.1 og)).2 ((hw'.real _ (List.mem_toFinset.1 og)).1 hv))

theorem corner_mem (pos : ℕ → Vec3 ℝ) (p : ℕ → Fin 3 → ℕ) (f : ℕ) (t : Fin 3) :
    pos (p f t) ∈ triangle (pos (p f 0)) (pos (p f 1)) (pos (p f 2)) := by
  fin_cases t
  · exact ⟨1, 0, 0, by norm_num, by norm_num, by norm_num, by norm_num, by ext <;> simp [comb]⟩
  · exact ⟨0, 1, 0, by norm_num, by norm_num, by norm_num, by norm_num, by ext <;> simp [comb]⟩
  · exact ⟨0, 0, 1, by norm_num, by norm_num, by norm_num, by norm_num, by ext <;> simp [comb]⟩

/-- A point without a zero flag is in no facet. -/
theorem Inv.off_facet (h : Inv τ pos N K q) (ht : 0 < τ) (hx : x < N) {g : ℕ} (hg : g ∈ q.fl)
    (h0 : testBB τ pos (q.fac g) x ≠ 0) : pos x ∉ triangle (pos (P q g 0)) (pos (P q g 1)) (pos (P q g 2)) := by
  rcases h.res.test (h.normal g hg) (fun s => (h.corner hg s).1) (h.proper hg) hx with ⟨-, -, h1⟩ | ⟨h1, -⟩ | ⟨-, h1⟩
  · exact h1 ht
  · exact fun hm => absurd (vol_tri_zero hm) h1.ne
  · exact absurd h1 h0

/-- The next point is strictly outside of the hull so far. -/
theorem Inv.outside (h : Inv τ pos N K q) (ht : 0 < τ) {f : ℕ} (hf : f ∈ q.fl) (hx : x ∈ (q.fac f).op)
    (h0 : ∀ g ∈ q.fl, testBB τ pos (q.fac g) x ≠ 0) : ∃ g ∈ q.fl, 0 < D pos (P q) g x := by
  by_contra hc
  push Not at hc
  obtain ⟨hxN, hfx⟩ := h.op f hf x hx
  obtain ⟨g, hg, hm⟩ := cover (x := pos x) h.cx (pos := pos) (K := K) (by
    intro δ hδ
    obtain ⟨ps, h1, h2⟩ := h.pert δ hδ
    exact ⟨ps, h1, fun f hf g hg s => h2 f (List.mem_toFinset.1 hf) _ (h.cvl g (List.mem_toFinset.1 hg) s)⟩)
    (fun f hf g hg s => h.weak f (List.mem_toFinset.1 hf) _ (h.corner (List.mem_toFinset.1 hg) s))
    (fun f hf => h.inner f (List.mem_toFinset.1 hf)) (fun g hg => hc g (List.mem_toFinset.1 hg))
    (List.mem_toFinset.2 hf) (le_antisymm (hc f hf) hfx)
  have hg' := List.mem_toFinset.1 hg
  exact h.off_facet ht hxN hg' (h0 g hg') hm

/-- A linear function with its maximum at one corner only has its maximum over the hull there. -/
theorem ext_done {F : Finset ℕ} {p : ℕ → Fin 3 → ℕ} {c : ℕ → Fin 3 → Option ℕ} (cx : Complex F p c) (hne : F.Nonempty)
    (hK : ∀ f ∈ F, H pos p f K < 0) {y v w : Vec3 ℝ} (hy : ∀ f ∈ F, H pos p f y ≤ 0)
    (hw : ∀ f ∈ F, ∀ s, pos (p f s) ≠ v → dot w (pos (p f s)) < dot w v) (hyv : y ≠ v) : dot w y < dot w v := by
  refine dot_hull_lt ?_ (closed_hull_le pos hne ?_ cx.uni hK hy) hyv
  · rintro u ⟨f, hf, s, rfl⟩; exact hw f hf s
  · intro f hf s
    obtain ⟨g, hg, t, -, -, e1, e2, -⟩ := cx.adj f hf s
    exact ⟨g, hg, t, e1, e2⟩

theorem Next.inv (n : Next τ pos ps q q' x m R pl) (h : Inv τ pos N K q) (hw : View pos ps q x) {f0 : ℕ} (hf0 : f0 ∈ q.fl)
    (hx : x ∈ (q.fac f0).op) (h0 : ∀ g ∈ q.fl, testBB τ pos (q.fac g) x ≠ 0) : Inv τ pos N K q' := by
  have hst := hw.st
  have hcx := n.complex h.lt hst
  have hxd := n.done_new h hw hf0 hx
  have hm0 : 0 < m := by have := n.mtwo; omega
  have hne : ∀ f ∈ q.fl, ∀ s, P q f s ≠ x := fun f hf s e => hst.new (e ▸ h.cvl f hf s)
  have hxvl : x ∉ q.vl := hst.new
  have hDold : ∀ (ps' : ℕ → Vec3 ℝ), ∀ f ∈ q.fl, ¬ Vis ps (P q) x f → ∀ y, D ps' (P q') f y = D ps' (P q) f y := by
    intro ps' f hf hv y; unfold D; rw [n.oldP hf hv]
  have hDnew : ∀ (ps' : ℕ → Vec3 ℝ), ∀ i < m, ∀ y, D ps' (P q') (q.nf + i) y =
      vol (ps' x) (ps' (src (P q) (R i))) (ps' (tgt (P q) (R i))) (ps' y) := by
    intro ps' i hi y; unfold D; rw [n.newP hi]; rfl
  have hrT := fun i hi => hst.ridge_T (n.ridge i hi)
  have hcorner : ∀ f ∈ q'.fl, ∀ s, P q' f s = x ∨ P q' f s ∈ q.vl := by
    intro f hf s
    rcases (n.mem f).1 hf with ⟨hf, hv⟩ | ⟨i, hi, rfl⟩
    · rw [n.oldP hf hv]; exact Or.inr (h.cvl f hf s)
    · rw [n.newP hi]
      fin_cases s
      · exact Or.inl rfl
      · exact Or.inr (hrT i hi).1
      · exact Or.inr (hrT i hi).2
  have hinv : ∀ f ∈ q.fl, ¬ Vis ps (P q) x f → D pos (P q) f x < 0 := by
    intro f hf hv
    rw [hw.real f hf] at hv
    exact not_le.1 hv
  have hcone := fun i hi => h.cx.cone_real (V := Vis ps (P q) x) (o := x) (K := K) (pos := pos)
    (fun f hf => hw.real f (List.mem_toFinset.1 hf))
    (fun f hf g hg s => h.weak f (List.mem_toFinset.1 hf) _ (h.corner (List.mem_toFinset.1 hg) s))
    (fun f hf => h.inner f (List.mem_toFinset.1 hf)) (n.ridge i hi)
  have wk : ∀ f ∈ q'.fl, ∀ y, Done N q y ∨ y = x → D pos (P q') f y ≤ 0 := by
    rintro f hf y (hy | rfl)
    · rcases (n.mem f).1 hf with ⟨hf, hv⟩ | ⟨i, hi, rfl⟩
      · rw [hDold pos f hf hv]; exact h.weak f hf y hy
      · rw [hDnew pos i hi]
        exact (hcone i hi).2 _ fun f hf => h.weak f (List.mem_toFinset.1 hf) y hy
    · rcases (n.mem f).1 hf with ⟨hf, hv⟩ | ⟨i, hi, rfl⟩
      · rw [hDold pos f hf hv]; exact (hinv f hf hv).le
      · rw [hDnew pos i hi, vol_self1]
  have hnevis : ∀ i < m, (R i).1 ∈ q.fl := fun i hi => List.mem_toFinset.1 (n.ridge i hi).1
  have hweak : ∀ f ∈ q'.fl, ∀ y, Done N q' y → D pos (P q') f y ≤ 0 := by
    intro f hf y hy
    by_cases hyd : Done N q y ∨ y = x
    · exact wk f hf y hyd
    · rw [not_or] at hyd
      -- a point that was above a visible facet and has been dropped
      obtain ⟨g, hg, hyg⟩ : ∃ g ∈ q.fl, y ∈ (q.fac g).op := by
        by_contra hc
        push Not at hc
        exact hyd.1 ⟨hy.1, hc⟩
      have hgv : Vis ps (P q) x g := by
        by_contra hgv
        refine hy.2 g ((n.mem g).2 (Or.inl ⟨hg, hgv⟩)) ?_
        rw [n.old g hg hgv]; exact hyg
      have hypl : y ∈ pl := (n.mpl y).2 ⟨hyd.2, g, hg, hgv, hyg⟩
      rcases n.rest y hypl with ⟨i, hi, hm⟩ | ⟨i, hi, hm⟩ | hr
      · exact (hy.2 _ ((n.mem _).2 (Or.inr ⟨i, hi, rfl⟩)) hm).elim
      · exact vol_tri_le (wk f hf _ (Or.inr rfl)) (wk f hf _ (Or.inl (h.vldone _ (hrT i hi).1)))
          (wk f hf _ (Or.inl (h.vldone _ (hrT i hi).2))) hm
      · rcases (n.mem f).1 hf with ⟨hf, hv⟩ | ⟨i, hi, rfl⟩
        · rw [hDold pos f hf hv]
          refine shadow (F := q'.fl.toFinset) (p := P q') pos ?_ ?_ hcx.uni (o := pos x) (x := pos y) ?_
            (a := pos (P q g 0)) (b := pos (P q g 1)) (c := pos (P q g 2)) (h.proper hg) ((hw.real g hg).1 hgv)
            (h.op g hg y hyg).2 ?_ (hinv f hf hv) ?_
          · exact ⟨q.nf + 0, List.mem_toFinset.2 ((n.mem _).2 (Or.inr ⟨0, hm0, rfl⟩))⟩
          · intro f hf s
            obtain ⟨g, hg, t, -, -, e1, e2, -⟩ := hcx.adj f hf s
            exact ⟨g, hg, t, e1, e2⟩
          · intro k hk
            rcases (n.mem k).1 (List.mem_toFinset.1 hk) with ⟨hk, hkv⟩ | ⟨i, hi, rfl⟩
            · left
              have := hinv k hk hkv
              rw [← hDold pos k hk hkv] at this
              exact this
            · right
              refine ⟨?_, hr i hi⟩
              have := hDnew pos i hi x
              rw [vol_self1] at this
              exact this
          · intro k hk s
            rcases hcorner k (List.mem_toFinset.1 hk) s with e | e
            · left; rw [e]
            · right; exact h.weak g hg _ (h.vldone _ e)
          · intro k hk s
            rcases hcorner k (List.mem_toFinset.1 hk) s with e | e
            · left; rw [e]
            · right; exact h.weak f hf _ (h.vldone _ e)
        · exact (hr i hi).le
  have hinner : ∀ f ∈ q'.fl, H pos (P q') f K < 0 := by
    intro f hf
    rcases (n.mem f).1 hf with ⟨hf, hv⟩ | ⟨i, hi, rfl⟩
    · unfold H; rw [n.oldP hf hv]; exact h.inner f hf
    · unfold H; rw [n.newP hi]; exact (hcone i hi).1
  have hold : ∀ f ∈ q'.fl, ∀ s, P q' f s = x ∨ ∃ g ∈ q.fl, ¬ Vis ps (P q) x g ∧ ∃ t, P q g t = P q' f s := by
    intro f hf s
    rcases (n.mem f).1 hf with ⟨hf, hv⟩ | ⟨i, hi, rfl⟩
    · exact Or.inr ⟨f, hf, hv, s, by rw [n.oldP hf hv]⟩
    · obtain ⟨o1, -, -, o2, o3, -⟩ := h.cx.opp_spec (n.ridge i hi).1
      have o1' := List.mem_toFinset.1 o1
      have ov := (n.ridge i hi).2.2
      rw [n.newP hi]
      fin_cases s
      · exact Or.inl rfl
      · exact Or.inr ⟨_, o1', ov, _, o3⟩
      · exact Or.inr ⟨_, o1', ov, _, o2⟩
  refine ⟨h.res, ?_, ?_, hcx, ?_, n.mrg, ?_, ?_, ?_, ?_, ?_, ?_, ?_, ?_, ?_, ?_, ?_, ?_, ?_, ?_, ?_⟩
  · rw [n.fl, List.nodup_append]
    refine ⟨h.nodup.filter _, cells_nodup _ _, ?_⟩
    rintro a ha b hb rfl
    obtain ⟨k, -, rfl⟩ := mem_cells.1 hb
    have := h.lt _ (List.mem_of_mem_filter ha)
    omega
  · intro f hf
    rw [n.nf]
    rcases (n.mem f).1 hf with ⟨hf, hv⟩ | ⟨i, hi, rfl⟩
    · have := h.lt f hf; omega
    · omega
  · intro f hf
    rcases (n.mem f).1 hf with ⟨hf, hv⟩ | ⟨i, hi, rfl⟩
    · rw [n.old f hf hv]; exact h.normal f hf
    · rw [n.new i hi]; exact cone_normal (q := q) (o := x) (τ := τ) (R i) none none (fun _ => false)
  · intro f hf
    rcases (n.mem f).1 hf with ⟨hf, hv⟩ | ⟨i, hi, rfl⟩
    · rw [n.old f hf hv]; exact h.flags f hf
    · rw [n.new i hi]; exact ⟨rfl, rfl⟩
  · intro f hf y hy
    rcases (n.mem f).1 hf with ⟨hf, hv⟩ | ⟨i, hi, rfl⟩
    · rw [n.old f hf hv] at hy
      rw [hDold pos f hf hv]
      exact h.op f hf y hy
    · obtain ⟨h1, h2⟩ := n.opm i hi y hy
      obtain ⟨-, g, hg, -, hyg⟩ := (n.mpl y).1 h1
      exact ⟨(h.op g hg y hyg).1, h2⟩
  · intro f hf
    rcases (n.mem f).1 hf with ⟨hf, hv⟩ | ⟨i, hi, rfl⟩
    · rw [n.old f hf hv]; exact h.opnd f hf
    · exact n.opnd i hi
  · have mixed : ∀ f ∈ q.fl, ¬ Vis ps (P q) x f → ∀ i < m, ∀ y, y ∈ (q'.fac f).op → y ∈ (q'.fac (q.nf + i)).op → False := by
      intro f hf hv i hi y hy hy'
      rw [n.old f hf hv] at hy
      obtain ⟨-, g, hg, hgv, hyg⟩ := (n.mpl y).1 (n.opm i hi y hy').1
      have := h.opdis f hf g hg y hy hyg
      exact hv (this ▸ hgv)
    intro f hf g hg y hy hy'
    rcases (n.mem f).1 hf with ⟨hf, hv⟩ | ⟨i, hi, rfl⟩ <;> rcases (n.mem g).1 hg with ⟨hg, hgv⟩ | ⟨j, hj, rfl⟩
    · rw [n.old f hf hv] at hy
      rw [n.old g hg hgv] at hy'
      exact h.opdis f hf g hg y hy hy'
    · exact (mixed f hf hv j hj y hy hy').elim
    · exact (mixed g hg hgv i hi y hy' hy).elim
    · rw [n.opdis i hi j hj y hy hy']
  · exact hweak
  · exact hinner
  · intro δ hδ
    obtain ⟨ps', hnear, hw'⟩ := h.view hf0 hx hδ
    refine ⟨ps', hnear, ?_⟩
    intro f hf y hy hys
    rw [n.vl, List.mem_append, List.mem_singleton] at hy
    rcases (n.mem f).1 hf with ⟨hf, hv⟩ | ⟨i, hi, rfl⟩
    · rw [hDold ps' f hf hv]
      rcases hy with hy | rfl
      · rw [n.oldP hf hv] at hys
        exact hw'.st.conv f (List.mem_toFinset.2 hf) y hy hys
      · refine hw'.st.invis (List.mem_toFinset.2 hf) fun hv' => hv ?_
        exact (hw.real f hf).2 ((hw'.real f hf).1 hv')
    · rw [hDnew ps' i hi]
      rw [n.newP hi] at hys
      rcases hy with hy | rfl
      · exact hw'.st.cone (hw.ridge hw' (n.ridge i hi)) hy (fun e => hys 1 e.symm) (fun e => hys 2 e.symm)
      · exact (hys 0 rfl).elim
  · rw [n.vl, List.nodup_append]
    refine ⟨h.vlnd, by simp, ?_⟩
    rintro a ha b hb rfl
    exact hxvl (List.mem_singleton.1 hb ▸ ha)
  · intro v hv
    rw [n.vl, List.mem_append, List.mem_singleton] at hv
    rcases hv with hv | rfl
    · exact n.done_mono (h.vldone v hv)
    · exact hxd
  · intro f hf s
    rw [n.vl, List.mem_append, List.mem_singleton]
    rcases (n.mem f).1 hf with ⟨hf, hv⟩ | ⟨i, hi, rfl⟩
    · rw [n.oldP hf hv]; exact Or.inl (h.cvl f hf s)
    · rw [n.newP hi]
      fin_cases s
      · exact Or.inr rfl
      · exact Or.inl (h.cvl _ (hnevis i hi) _)
      · exact Or.inl (h.cvl _ (hnevis i hi) _)
  · intro v hv
    rw [n.vl, List.mem_append, List.mem_singleton] at hv
    rw [n.disc v]
    rcases hv with hv | rfl
    · have hvx : v ≠ x := fun e => hxvl (e ▸ hv)
      constructor
      · intro hd
        by_cases hh : ∃ i < m, v = src (P q) (R i) ∨ v = tgt (P q) (R i)
        · obtain ⟨i, hi, e | e⟩ := hh
          · exact ⟨_, (n.mem _).2 (Or.inr ⟨i, hi, rfl⟩), 1, by rw [n.newP hi, e]; rfl⟩
          · exact ⟨_, (n.mem _).2 (Or.inr ⟨i, hi, rfl⟩), 2, by rw [n.newP hi, e]; rfl⟩
        · rw [if_neg hh, Bool.or_eq_false_iff, decide_eq_false_iff_not] at hd
          obtain ⟨f, hf, s, e⟩ := (h.disc v hv).1 hd.1
          have hfv : ¬ Vis ps (P q) x f := fun hfv => hd.2 ⟨f, hf, hfv, s, e⟩
          exact ⟨f, (n.mem f).2 (Or.inl ⟨hf, hfv⟩), s, by rw [n.oldP hf hfv]; exact e⟩
      · rintro ⟨f, hf, s, e⟩
        by_cases hh : ∃ i < m, v = src (P q) (R i) ∨ v = tgt (P q) (R i)
        · rw [if_pos hh]
        · rw [if_neg hh, Bool.or_eq_false_iff, decide_eq_false_iff_not]
          rcases (n.mem f).1 hf with ⟨hf, hfv⟩ | ⟨i, hi, rfl⟩
          · rw [n.oldP hf hfv] at e
            refine ⟨(h.disc v hv).2 ⟨f, hf, s, e⟩, ?_⟩
            rintro ⟨g, hg, hgv, t, e'⟩
            obtain ⟨r, hr, hrs⟩ := hst.on_horizon (List.mem_toFinset.2 hg) hgv (List.mem_toFinset.2 hf) hfv
              (s := t) (t := s) (e'.trans e.symm)
            obtain ⟨k, hk, hR⟩ := hst.complete R m hm0 n.ridge n.chain n.close hr
            exact hh ⟨k, hk, Or.inl (by rw [hR, hrs, e])⟩
          · exfalso
            rw [n.newP hi] at e
            fin_cases s
            · exact hvx e.symm
            · exact hh ⟨i, hi, Or.inl e.symm⟩
            · exact hh ⟨i, hi, Or.inr e.symm⟩
    · constructor
      · intro _
        exact ⟨_, (n.mem _).2 (Or.inr ⟨0, hm0, rfl⟩), 0, by rw [n.newP hm0]; rfl⟩
      · intro _
        rw [ite_eq_left_iff]
        intro _
        rw [Bool.or_eq_false_iff, decide_eq_false_iff_not]
        exact ⟨h.disc0 v hxvl, fun ⟨g, hg, _, t, e⟩ => hne g hg t e⟩
  · intro v hv
    rw [n.vl, List.mem_append, not_or] at hv
    rw [n.disc v, ite_eq_left_iff]
    intro _
    rw [Bool.or_eq_false_iff, decide_eq_false_iff_not]
    exact ⟨h.disc0 v hv.1, fun ⟨g, hg, _, t, e⟩ => hv.1 (e ▸ h.cvl g hg t)⟩
  · intro e
    have : q.nf + 0 ∈ q'.fl := (n.mem _).2 (Or.inr ⟨0, hm0, rfl⟩)
    rw [e] at this
    exact absurd this List.not_mem_nil
  · intro hd f hf g hg s t e
    have key : ∀ g ∈ q.fl, ∀ t, pos x = pos (P q g t) → x = P q g t := by
      intro g hg t e
      rcases hd with ht | hi
      · exfalso
        refine h.off_facet ht hxd.1 hg (h0 g hg) ?_
        rw [e]; exact corner_mem pos (P q) g t
      · exact hi x hxd.1 _ (h.corner hg t).1 e
    rcases hold f hf s with e1 | ⟨f', hf', -, s', e1⟩ <;> rcases hold g hg t with e2 | ⟨g', hg', -, t', e2⟩
    · rw [e1, e2]
    · rw [e1, ← e2] at e ⊢; exact key g' hg' t' e
    · rw [← e1, e2] at e ⊢; exact (key f' hf' s' e.symm).symm
    · rw [← e1, ← e2] at e ⊢; exact h.dist hd f' hf' g' hg' s' t' e
  · intro ht f hf s
    have hD : ∀ g y z, D pos (P q) g y - D pos (P q) g z =
        dot (triNormal (pos (P q g 0), pos (P q g 1), pos (P q g 2))) (pos y) -
        dot (triNormal (pos (P q g 0), pos (P q g 1), pos (P q g 2))) (pos z) := by
      intro g y z
      have e : ∀ n a b : Vec3 ℝ, dot n (a.sub b) = dot n a - dot n b := by
        intro n a b; simp only [dot, Vec3.sub]; ring
      unfold D vol
      rw [e, e]; ring
    obtain ⟨w, hw⟩ : ∃ w, ∀ g ∈ q'.fl, ∀ t, pos (P q' g t) ≠ pos (P q' f s) →
        dot w (pos (P q' g t)) < dot w (pos (P q' f s)) := by
      rcases hold f hf s with e1 | ⟨f', hf', hv', s', e1⟩
      · obtain ⟨k, hk, hpos⟩ := h.outside ht hf0 hx h0
        refine ⟨triNormal (pos (P q k 0), pos (P q k 1), pos (P q k 2)), fun g hg t hne' => ?_⟩
        rw [e1] at hne' ⊢
        rcases hold g hg t with e2 | ⟨g', hg', -, t', e2⟩
        · rw [e2] at hne'; exact absurd rfl hne'
        · rw [← e2]
          have := hD k (P q g' t') x
          have h3 := h.weak k hk _ (h.corner hg' t')
          linarith
      · rw [← e1]
        obtain ⟨w0, hw0⟩ := h.ext ht f' hf' s'
        have hneg := hinv f' hf' hv'
        set n0 := triNormal (pos (P q f' 0), pos (P q f' 1), pos (P q f' 2)) with hn0
        set δ := dot w0 (pos x) - dot w0 (pos (P q f' s')) with hδ
        set M := (|δ| + 1) / (-D pos (P q) f' x) with hM
        have hM0 : 0 ≤ M := div_nonneg (by positivity) (by linarith)
        have hMD : M * D pos (P q) f' x = -(|δ| + 1) := by
          rw [hM]; have := hneg.ne; field_simp
        have hself : D pos (P q) f' (P q f' s') = 0 := vol_tri_zero (corner_mem pos (P q) f' s')
        refine ⟨⟨w0.x + M * n0.x, w0.y + M * n0.y, w0.z + M * n0.z⟩, fun g hg t hne' => ?_⟩
        have hsplit : ∀ v : Vec3 ℝ, dot ⟨w0.x + M * n0.x, w0.y + M * n0.y, w0.z + M * n0.z⟩ v =
            dot w0 v + M * dot n0 v := by intro v; simp only [dot]; ring
        rw [hsplit, hsplit]
        rcases hold g hg t with e2 | ⟨g', hg', -, t', e2⟩
        · rw [e2]
          have h4 := hD f' x (P q f' s')
          rw [hself, sub_zero, ← hn0] at h4
          have h5 := le_abs_self δ
          have h6 : M * (dot n0 (pos x) - dot n0 (pos (P q f' s'))) = -(|δ| + 1) := by rw [← h4]; exact hMD
          linarith
        · rw [← e2] at hne' ⊢
          have h4 := hD f' (P q g' t') (P q f' s')
          rw [hself, sub_zero, ← hn0] at h4
          have h5 := h.weak f' hf' _ (h.corner hg' t')
          have h6 := hw0 _ (h.corner hg' t') hne'
          have h7 : M * (dot n0 (pos (P q g' t')) - dot n0 (pos (P q f' s'))) ≤ 0 := by
            rw [← h4]; exact mul_nonpos_of_nonneg_of_nonpos hM0 h5
          linarith
    refine ⟨w, fun y hy hyv => ?_⟩
    exact ext_done (K := K) hcx ⟨f, List.mem_toFinset.2 hf⟩ (fun f hf => hinner f (List.mem_toFinset.1 hf))
      (fun f hf => hweak f (List.mem_toFinset.1 hf) y hy) (fun g hg t => hw g (List.mem_toFinset.1 hg) t) hyv

/-- The points that are still outside. -/
def todo (N : ℕ) (q : QH) : ℕ := ((Finset.range N).filter fun x => ¬ Done N q x).card

theorem todo_lt {N : ℕ} {q q' : QH} {x : ℕ} (hmono : ∀ y, Done N q y → Done N q' y) (hx : x < N) (h1 : ¬ Done N q x)
    (h2 : Done N q' x) : todo N q' < todo N q := by
  refine Finset.card_lt_card ?_
  rw [Finset.ssubset_iff_of_subset]
  · refine ⟨x, ?_, ?_⟩
    · rw [Finset.mem_filter, Finset.mem_range]
      exact ⟨hx, h1⟩
    · rw [Finset.mem_filter, not_and, not_not]
      exact fun _ => h2
  · intro y hy
    rw [Finset.mem_filter] at hy ⊢
    exact ⟨hy.1, fun hd => hy.2 (hmono y hd)⟩

/-- A point on a facet is dropped. -/
theorem Inv.drop (h : Inv τ pos N K q) {f x g : ℕ} (hf : f ∈ q.fl) (hx : (q.fac f).op.getLast? = some x)
    (hg : g ∈ q.fl) (hz : testBB τ pos (q.fac g) x = 0) :
    ∃ q', inc τ pos q f = (true, q') ∧ Inv τ pos N K q' ∧ todo N q' < todo N q := by
  have hxo : x ∈ (q.fac f).op := List.mem_of_getLast? hx
  have hxN := (h.op f hf x hxo).1
  have hdl : (q.fac f).op = (q.fac f).op.dropLast ++ [x] := (List.dropLast_append_getLast? x hx).symm
  have hdn : (q.fac f).op.dropLast.Nodup ∧ x ∉ (q.fac f).op.dropLast := by
    have := h.opnd f hf
    rw [hdl, List.nodup_append] at this
    exact ⟨this.1, fun hm => this.2.2 x hm x (by simp) rfl⟩
  set q0 := q.set f { q.fac f with op := (q.fac f).op.dropLast } with hq0
  have hfac0 : ∀ i, q0.fac i = if i = f then { q.fac f with op := (q.fac f).op.dropLast } else q.fac i := by
    intro i
    by_cases hi : i = f
    · subst hi; rw [if_pos rfl]; exact Function.update_self _ _ _
    · rw [if_neg hi]; exact Function.update_of_ne hi _ _
  have hsame : ∀ i, q0.fac i = { q.fac i with op := (q0.fac i).op } := by
    intro i
    rw [hfac0 i]
    split
    · rename_i e; rw [e]
    · rfl
  have hop0 : ∀ i ∈ q.fl, ∀ y, y ∈ (q0.fac i).op ↔ y ≠ x ∧ y ∈ (q.fac i).op := by
    intro i hi y
    rw [hfac0 i]
    split
    · rename_i e
      subst e
      dsimp only
      constructor
      · intro hy
        exact ⟨fun e => hdn.2 (e ▸ hy), List.mem_of_mem_dropLast hy⟩
      · rintro ⟨h1, h2⟩
        rw [hdl] at h2
        rcases List.mem_append.1 h2 with h3 | h3
        · exact h3
        · exact absurd (List.mem_singleton.1 h3) h1
    · rename_i e
      constructor
      · intro hy
        exact ⟨fun e' => e (h.opdis i hi f hf x (e' ▸ hy) hxo), hy⟩
      · exact fun h => h.2
  have hopnd0 : ∀ i ∈ q.fl, (q0.fac i).op.Nodup := by
    intro i hi
    rw [hfac0 i]
    split
    · exact hdn.1
    · exact h.opnd i hi
  have hloop : visLoop τ pos x q.fl q0 = none := by
    have e0 : markSet q0 (fun _ => False) = q0 := by unfold markSet; simp
    have := visLoop_none (τ := τ) (pos := pos) x q0 q.fl (fun _ => False) ⟨g, hg, by
      rw [testBB_congr (g := q.fac g) (by rw [hsame g]) (by rw [hsame g])]; exact hz⟩
    rw [e0] at this
    exact this
  set q' := resetFlag q0 with hq'
  have hfl : q'.fl = q.fl := rfl
  have hvl : q'.vl = q.vl := rfl
  have hfac : ∀ i, (q'.fac i).p = (q.fac i).p ∧ (q'.fac i).c = (q.fac i).c ∧ (q'.fac i).n = (q.fac i).n ∧
      (q'.fac i).merge = (q.fac i).merge ∧ (q'.fac i).op = (q0.fac i).op := by
    intro i
    rw [hq']
    unfold resetFlag
    dsimp only
    split <;> (rw [hsame i]; exact ⟨rfl, rfl, rfl, rfl, rfl⟩)
  have hP : P q' = P q := by ext i s; exact congrFun (hfac i).1 s
  have hC : C q' = C q := by ext1 i; exact (hfac i).2.1
  have hop : ∀ i ∈ q.fl, ∀ y, y ∈ (q'.fac i).op ↔ y ≠ x ∧ y ∈ (q.fac i).op := by
    intro i hi y; rw [(hfac i).2.2.2.2]; exact hop0 i hi y
  have hmono : ∀ y, Done N q y → Done N q' y := fun y hy => ⟨hy.1, fun i hi hm => hy.2 i hi ((hop i hi y).1 hm).2⟩
  have hxd : Done N q' x := ⟨hxN, fun i hi hm => ((hop i hi x).1 hm).1 rfl⟩
  have hback : ∀ y, Done N q' y → Done N q y ∨ y = x := by
    intro y hy
    by_cases hyx : y = x
    · exact Or.inr hyx
    · exact Or.inl ⟨hy.1, fun i hi hm => hy.2 i hi ((hop i hi y).2 ⟨hyx, hm⟩)⟩
  have hweak : ∀ i ∈ q'.fl, ∀ y, Done N q' y → D pos (P q') i y ≤ 0 := by
    intro i hi y hy
    rw [hP]
    rcases hback y hy with hy | rfl
    · exact h.weak i hi y hy
    · rcases h.res.test (h.normal g hg) (fun s => (h.corner hg s).1) (h.proper hg) hxN with
        ⟨-, e, -⟩ | ⟨-, e⟩ | ⟨ht, -⟩
      · rw [hz] at e; exact absurd e (by decide)
      · rw [hz] at e; exact absurd e (by decide)
      · exact vol_tri_le (h.weak i hi _ (h.corner hg 0)) (h.weak i hi _ (h.corner hg 1))
          (h.weak i hi _ (h.corner hg 2)) ht
  refine ⟨q', ?_, ?_, todo_lt hmono hxN (fun hd => hd.2 f hf hxo) hxd⟩
  · unfold inc
    rw [hx]
    simp only []
    have hvs : visibleSet τ pos q0 x = none := by
      unfold visibleSet
      show (visLoop τ pos x q.fl q0).map _ = none
      rw [hloop]; rfl
    rw [← hq0, hvs]
  · refine ⟨h.res, h.nodup, h.lt, by rw [hfl, hP, hC]; exact h.cx, ?_, ?_, ?_, ?_, ?_, ?_, ?_, ?_, ?_, h.vlnd,
      fun v hv => hmono v (h.vldone v hv), by rw [hP]; exact h.cvl, by rw [hP]; exact h.disc, h.disc0, h.ne,
      by rw [hP]; exact h.dist, ?_⟩
    · intro i hi
      unfold NormalOK
      rw [(hfac i).1, (hfac i).2.2.1]; exact h.normal i hi
    · intro i hi s j
      rw [(hfac i).2.1, (hfac i).2.2.1, (hfac i).2.2.2.1, (hfac j).2.2.1]
      exact h.mrg i hi s j
    · intro i hi
      have hi' : i ∈ q0.fl := hi
      have : q'.fac i = { q0.fac i with visible := false, check := false } := if_pos hi'
      rw [this]; exact ⟨rfl, rfl⟩
    · intro i hi y hy
      rw [hP]
      exact h.op i hi y ((hop i hi y).1 hy).2
    · intro i hi
      rw [(hfac i).2.2.2.2]; exact hopnd0 i hi
    · intro i hi j hj y hy hy'
      exact h.opdis i hi j hj y ((hop i hi y).1 hy).2 ((hop j hj y).1 hy').2
    · exact hweak
    · rw [hP]; exact h.inner
    · rw [hP]; exact h.pert
    · intro ht i hi s
      obtain ⟨w, hw⟩ := h.ext ht i hi s
      refine ⟨w, fun y hy hyv => ?_⟩
      rw [hP] at hyv ⊢
      obtain ⟨f1, hf1⟩ := List.exists_mem_of_ne_nil _ h.ne
      refine ext_done (K := K) h.cx ⟨f1, List.mem_toFinset.2 hf1⟩ (fun f hf => h.inner f (List.mem_toFinset.1 hf))
        (fun f hf => ?_) (fun g hg t => hw _ (h.corner (List.mem_toFinset.1 hg) t)) hyv
      have := hweak f (List.mem_toFinset.1 hf) y hy
      rw [hP] at this
      exact this

/-- One step of the loop. -/
theorem inc_spec (h : Inv τ pos N K q) {f : ℕ} (hf : f ∈ q.fl) (hop : (q.fac f).op ≠ []) :
    ∃ q', inc τ pos q f = (true, q') ∧ Inv τ pos N K q' ∧ todo N q' < todo N q := by
  obtain ⟨x, hx⟩ : ∃ x, (q.fac f).op.getLast? = some x := ⟨_, List.getLast?_eq_some_getLast hop⟩
  have hxo : x ∈ (q.fac f).op := List.mem_of_getLast? hx
  by_cases hz : ∃ g ∈ q.fl, testBB τ pos (q.fac g) x = 0
  · obtain ⟨g, hg, hz⟩ := hz
    exact h.drop hf hx hg hz
  · push Not at hz
    obtain ⟨ps, -, hw⟩ := h.view hf hxo one_pos
    obtain ⟨q', m, R, pl, e, n⟩ := h.next hf hx hw hz
    exact ⟨q', e, n.inv h hw hf hxo hz, todo_lt (fun y hy => n.done_mono hy) (h.op f hf x hxo).1
      (fun hd => hd.2 f hf hxo) (n.done_new h hw hf hxo)⟩

/-- The loop ends with all points dealt with. -/
theorem grow_spec (k : ℕ) : ∀ q : QH, Inv τ pos N K q → todo N q < k →
    Inv τ pos N K (grow τ pos k q) ∧ ∀ f ∈ (grow τ pos k q).fl, ((grow τ pos k q).fac f).op = [] := by
  induction k with
  | zero => intro q _ h; omega
  | succ k ih =>
    intro q h hk
    unfold grow
    cases hfind : q.fl.find? fun f => (q.fac f).op ≠ [] with
    | none =>
      refine ⟨h, fun f hf => ?_⟩
      rw [List.find?_eq_none] at hfind
      have := hfind f hf
      simpa using this
    | some f =>
      have hf := List.mem_of_find?_eq_some hfind
      have hop : (q.fac f).op ≠ [] := by
        have := List.find?_some hfind
        simpa using this
      obtain ⟨q', e, hi, ht⟩ := inc_spec h hf hop
      simp only [e, if_true]
      exact ih q' hi (by omega)

end
end Zeo.QHMesh

import Verif.Lemmas.QHPos

/-! # The walk along the horizon builds the cone -/

namespace Zeo.QHMesh
noncomputable section
open Classical QHGeom Spec QH

variable {τ : ℝ} {pos : ℕ → Vec3 ℝ} {N : ℕ}

/-- Corners and neighbours of the facet cells. -/
abbrev P (q : QH) : ℕ → Fin 3 → ℕ := fun f => (q.fac f).p
abbrev C (q : QH) : ℕ → Fin 3 → Option ℕ := fun f => (q.fac f).c

/-- What holds when the walk starts: `F` all the facets, `T` the points dealt with, `o` the new point, `K` a point
beneath all the facets. `ps` are places close to the points where nothing is degenerate. -/
structure Start (τ : ℝ) (pos ps : ℕ → Vec3 ℝ) (K : Vec3 ℝ) (N : ℕ) (q : QH) (F : Finset ℕ) (T : ℕ → Prop) (o : ℕ) :
    Prop where
  res : Res τ pos N
  st : Setting ps F (P q) (C q) T o
  lt : ∀ f ∈ F, f < q.nf
  normal : ∀ f ∈ F, NormalOK pos (q.fac f)
  bound : ∀ x, T x → x < N
  obound : o < N
  vis : ∀ f ∈ F, (q.fac f).visible = decide (Vis ps (P q) o f)
  real : ∀ f ∈ F, Vis ps (P q) o f ↔ 0 ≤ D pos (P q) f o
  weak : ∀ f ∈ F, ∀ x, T x → D pos (P q) f x ≤ 0
  inner : ∀ f ∈ F, H pos (P q) f K < 0
  mrg : ∀ f ∈ F, ∀ s g, (q.fac f).merge s = true → (q.fac f).c s = some g → (q.fac f).n = (q.fac g).n

/-- The facet built on a ridge, with flags `M`. -/
def coneFacet (τ : ℝ) (pos : ℕ → Vec3 ℝ) (q : QH) (o : ℕ) (r : ℕ × Fin 3) (a b : Option ℕ) (M : Fin 3 → Bool) :
    QFacet :=
  { facetCreate τ pos o (src (P q) r) (tgt (P q) r) with c := ![some (opp (C q) r).1, a, b], merge := M }

/-- Facets are merged only with facets in the same plane. -/
def Mrg (q : QH) (L : ℕ → Prop) : Prop :=
  ∀ f, L f → ∀ s g, (q.fac f).merge s = true → (q.fac f).c s = some g → L g ∧ (q.fac f).n = (q.fac g).n

/-- The facets and the first `m` cells of the cone. -/
def Live (F : Finset ℕ) (b m f : ℕ) : Prop := f ∈ F ∨ ∃ i < m, f = b + i

/-- The state after the ridges `R 0, ..., R (m-1)` were dealt with. -/
structure Part (τ : ℝ) (pos : ℕ → Vec3 ℝ) (q q1 : QH) (F : Finset ℕ) (o m : ℕ) (R : ℕ → ℕ × Fin 3)
    (nx pv : ℕ → Option ℕ) : Prop where
  nf : q1.nf = q.nf + m
  fl : q1.fl = q.fl
  vl : q1.vl = q.vl
  old : ∀ f ∈ F, q1.fac f = { q.fac f with c := (q1.fac f).c, merge := (q1.fac f).merge }
  keep : ∀ f ∈ F, ∀ s, (∀ i < m, R i ≠ opp (C q) (f, s)) → (q1.fac f).c s = (q.fac f).c s
  turn : ∀ f ∈ F, ∀ s, ∀ i < m, R i = opp (C q) (f, s) → (q1.fac f).c s = some (q.nf + i)
  new : ∀ i < m, q1.fac (q.nf + i) = coneFacet τ pos q o (R i) (nx i) (pv i) (q1.fac (q.nf + i)).merge
  disc : ∀ v, q1.discard v = if ∃ i < m, v = src (P q) (R i) ∨ v = tgt (P q) (R i) then false else q.discard v
  mrg : Mrg q1 (Live F q.nf m)

variable {ps : ℕ → Vec3 ℝ} {K : Vec3 ℝ} {q q1 : QH} {F : Finset ℕ} {T : ℕ → Prop} {o m : ℕ} {R : ℕ → ℕ × Fin 3} {nx pv : ℕ → Option ℕ}

theorem pick3 (t : Fin 3) : (if 0 = t then some (0 : Fin 3) else if 1 = t then some 1 else if 2 = t then some 2
    else none) = some t := by fin_cases t <;> simp

/-- Binding two different facets. -/
theorem bind_fac {q : QH} {f1 f2 : ℕ} {s1 s2 : Fin 3} (hne : f1 ≠ f2) (i : ℕ) :
    (QH.bind τ pos q f1 s1 f2 s2).fac i = if i = f1 then { q.fac f1 with
        c := Function.update (q.fac f1).c s1 (some f2)
        merge := Function.update (q.fac f1).merge s1 (bindFlag τ pos (q.fac f1) s1 (q.fac f2)) }
      else if i = f2 then { q.fac f2 with
        c := Function.update (q.fac f2).c s2 (some f1)
        merge := Function.update (q.fac f2).merge s2 (bindFlag τ pos (q.fac f1) s1 (q.fac f2)) } else q.fac i := by
  simp only [QH.bind, QH.set]
  by_cases h2 : i = f2
  · subst h2
    rw [if_neg (Ne.symm hne), if_pos rfl, Function.update_self, Function.update_of_ne (Ne.symm hne)]
  · rw [Function.update_of_ne h2, if_neg h2]
    by_cases h1 : i = f1
    · subst h1
      rw [if_pos rfl, Function.update_self]
    · rw [if_neg h1, Function.update_of_ne h1]

theorem bind_mrg {q : QH} {L : ℕ → Prop} (hq : Mrg q L) {f1 f2 : ℕ} {s1 s2 : Fin 3} (hne : f1 ≠ f2) (h1 : L f1)
    (h2 : L f2) (hb : bindFlag τ pos (q.fac f1) s1 (q.fac f2) = true → (q.fac f1).n = (q.fac f2).n) :
    Mrg (QH.bind τ pos q f1 s1 f2 s2) L := by
  have hn : ∀ i, ((QH.bind τ pos q f1 s1 f2 s2).fac i).n = (q.fac i).n := by
    intro i
    rw [bind_fac hne]
    split
    · rename_i e; rw [e]
    · split
      · rename_i e; rw [e]
      · rfl
  intro f hf s g
  rw [hn, hn, bind_fac hne]
  split
  · rename_i e; subst e
    intro hm hc
    by_cases hs : s = s1
    · subst hs
      simp only [Function.update_self] at hm hc
      obtain rfl := Option.some.inj hc
      exact ⟨h2, hb hm⟩
    · simp only [Function.update_of_ne hs] at hm hc
      exact hq _ hf s g hm hc
  · split
    · rename_i e; subst e
      intro hm hc
      by_cases hs : s = s2
      · subst hs
        simp only [Function.update_self] at hm hc
        obtain rfl := Option.some.inj hc
        exact ⟨h1, (hb hm).symm⟩
      · simp only [Function.update_of_ne hs] at hm hc
        exact hq _ hf s g hm hc
    · exact hq f hf s g

theorem bind_rest (q : QH) (f1 f2 : ℕ) (s1 s2 : Fin 3) :
    (QH.bind τ pos q f1 s1 f2 s2).nf = q.nf ∧ (QH.bind τ pos q f1 s1 f2 s2).fl = q.fl ∧
      (QH.bind τ pos q f1 s1 f2 s2).vl = q.vl ∧ (QH.bind τ pos q f1 s1 f2 s2).discard = q.discard := ⟨rfl, rfl, rfl, rfl⟩

theorem Start.ridge_bound (h : Start τ pos ps K N q F T o) {r : ℕ × Fin 3} (hr : Ridge F (C q) (Vis ps (P q) o) r) :
    src (P q) r < N ∧ tgt (P q) r < N ∧ o ≠ src (P q) r ∧ o ≠ tgt (P q) r := by
  obtain ⟨h1, h2⟩ := h.st.ridge_T hr
  exact ⟨h.bound _ h1, h.bound _ h2, fun e => h.st.new (e ▸ h1), fun e => h.st.new (e ▸ h2)⟩

theorem inj3 {a b c : ℕ} (h1 : a ≠ b) (h2 : a ≠ c) (h3 : b ≠ c) : Function.Injective ![a, b, c] := by
  intro i j hij
  fin_cases i <;> fin_cases j <;> simp_all

theorem cone_bound (h : Start τ pos ps K N q F T o) {r : ℕ × Fin 3} (hr : Ridge F (C q) (Vis ps (P q) o) r)
    (a b : Option ℕ) (M : Fin 3 → Bool) : ∀ s, (coneFacet τ pos q o r a b M).p s < N := by
  obtain ⟨h1, h2, h3, h4⟩ := h.ridge_bound hr
  intro s
  fin_cases s
  · exact h.obound
  · exact h1
  · exact h2

theorem cone_normal (r : ℕ × Fin 3) (a b : Option ℕ) (M : Fin 3 → Bool) :
    NormalOK pos (coneFacet τ pos q o r a b M) :=
  facetCreate_normal (τ := τ) (pos := pos) _ _ _

theorem Start.cone_inner (h : Start τ pos ps K N q F T o) {r : ℕ × Fin 3} (hr : Ridge F (C q) (Vis ps (P q) o) r) :
    vol (pos o) (pos (src (P q) r)) (pos (tgt (P q) r)) K < 0 :=
  (h.st.cx.cone_real h.real (fun f hf g hg s => h.weak f hf _ (h.st.corner g hg s)) h.inner hr).1

theorem Start.cone_weak (h : Start τ pos ps K N q F T o) {r : ℕ × Fin 3} (hr : Ridge F (C q) (Vis ps (P q) o) r)
    {X : Vec3 ℝ} (hx : ∀ f ∈ F, H pos (P q) f X ≤ 0) :
    vol (pos o) (pos (src (P q) r)) (pos (tgt (P q) r)) X ≤ 0 :=
  (h.st.cx.cone_real h.real (fun f hf g hg s => h.weak f hf _ (h.st.corner g hg s)) h.inner hr).2 X hx

theorem Start.mrg0 (h : Start τ pos ps K N q F T o) : Mrg q (Live F q.nf 0) := by
  rintro f (hf | ⟨i, hi, -⟩) s g hm hc
  · refine ⟨Or.inl ?_, h.mrg f hf s g hm hc⟩
    obtain ⟨og, oc, -⟩ := h.st.cx.opp_spec (r := (f, s)) hf
    have := oc.symm.trans hc
    rw [← Option.some.inj this]; exact og
  · omega

/-- Dealing with one more ridge. -/
theorem Part.add (h : Start τ pos ps K N q F T o) (hp : Part τ pos q q1 F o m R nx pv)
    (hR : ∀ i < m, Ridge F (C q) (Vis ps (P q) o) (R i)) {r : ℕ × Fin 3}
    (hr : Ridge F (C q) (Vis ps (P q) o) r) (hnew : ∀ i < m, R i ≠ r) :
    ∃ q2, QH.newFacet τ pos q1 o r.1 r.2 = some (q2, q.nf + m) ∧
      Part τ pos q q2 F o (m + 1) (Function.update R m r) (Function.update nx m none) (Function.update pv m none) := by
  obtain ⟨hf, hv, hg⟩ := hr
  have hr : Ridge F (C q) (Vis ps (P q) o) r := ⟨hf, hv, hg⟩
  obtain ⟨og, oc, ob, os, ot, on⟩ := h.st.cx.opp_spec hf
  set g := (opp (C q) r).1 with hgdef
  set t := (opp (C q) r).2 with htdef
  have hgt : opp (C q) r = (g, t) := rfl
  have hoo : opp (C q) (g, t) = r := h.st.cx.opp_opp hf
  have hflt := h.lt _ hf
  have hglt := h.lt _ og
  -- the pointer of the visible facet is untouched
  have hcr : (q1.fac r.1).c r.2 = some g := by
    rw [hp.keep r.1 hf r.2]
    · exact oc
    · intro i hi e
      have := (hR i hi).2.1
      rw [e] at this
      exact hg this
  have hpr : (q1.fac r.1).p = (q.fac r.1).p := by rw [hp.old _ hf]
  set a := src (P q) r with ha
  set b := tgt (P q) r with hb
  have hpa : (q1.fac r.1).p (r.2 + 1) = a := by rw [hpr]; rfl
  have hpb : (q1.fac r.1).p (r.2 + 2) = b := by rw [hpr]; rfl
  have hnfr : r.1 ≠ q1.nf := by rw [hp.nf]; omega
  have hnfg : g ≠ q1.nf := by rw [hp.nf]; omega
  set q' : QH := { q1.set q1.nf (facetCreate τ pos o a b) with
                nf := q1.nf + 1
                discard := fun v => if v = a ∨ v = b then false else q1.discard v } with hq'
  have hq'old : ∀ i, i ≠ q1.nf → q'.fac i = q1.fac i := fun i hi => Function.update_of_ne hi _ _
  have hq'new : q'.fac q1.nf = facetCreate τ pos o a b := Function.update_self _ _ _
  have hcg : ∀ t', (q1.fac g).c t' = some r.1 ↔ t' = t := by
    intro t'
    by_cases hex : ∃ i < m, R i = opp (C q) (g, t')
    · obtain ⟨i, hi, e⟩ := hex
      rw [hp.turn g og t' i hi e]
      constructor
      · intro e'
        have := Option.some.inj e'
        omega
      · rintro rfl
        exact absurd (e.trans hoo) (hnew i hi)
    · push Not at hex
      rw [hp.keep g og t' hex]
      exact ob t'
  have hcontig : contigID q' r.1 r.2 = some t := by
    unfold contigID
    rw [hq'old _ hnfr, hcr, Option.bind_some, hq'old _ hnfg]
    simp only [hcg]
    exact pick3 t
  have hres : QH.newFacet τ pos q1 o r.1 r.2 = some (QH.bind τ pos q' q1.nf 0 g t, q1.nf) := by
    unfold QH.newFacet
    simp only [hpa, hpb]
    rw [← hq', hcontig, Option.bind_some, hq'old _ hnfr, hcr, Option.map_some]
  have hgn := hp.old g og
  have hflag : bindFlag τ pos (q'.fac q1.nf) 0 (q'.fac g) = true → (q'.fac q1.nf).n = (q'.fac g).n := by
    rw [hq'new, hq'old _ hnfg]
    have cb := cone_bound h hr none none fun _ => false
    have hgp : (q1.fac g).p = (q.fac g).p := by rw [hgn]
    refine h.res.flag (s1 := 0) (s2 := t) (k := K) (facetCreate_normal _ _ _) ?_ cb
      (by rw [hgp]; exact fun s => h.bound _ (h.st.corner g og s)) (by rw [hgp]; exact os) (by rw [hgp]; exact ot) ?_
      (h.cone_inner hr) ?_
    · have := h.normal g og
      unfold NormalOK at this ⊢
      rw [hgn]; exact this
    · rw [hgp]
      exact h.cone_weak hr fun f hf => h.weak f hf _ (h.st.corner g og t)
    · rw [hgp]
      have := h.inner g og
      rwa [← H_rot pos (P q) g K t] at this
  have hfac := bind_fac (τ := τ) (pos := pos) (q := q') (s1 := 0) (s2 := t) (Ne.symm hnfg)
  have hmrg : Mrg (QH.bind τ pos q' q1.nf 0 g t) (Live F q.nf (m + 1)) := by
    refine bind_mrg ?_ (Ne.symm hnfg) (Or.inr ⟨m, by omega, hp.nf⟩) (Or.inl og) hflag
    intro f hf s g'
    by_cases hfn : f = q1.nf
    · rw [hfn, hq'new]
      intro hm
      simp [facetCreate] at hm
    · rw [hq'old f hfn]
      intro hm hc
      have hl : Live F q.nf m f := by
        rcases hf with hf | ⟨i, hi, e⟩
        · exact Or.inl hf
        · refine Or.inr ⟨i, ?_, e⟩
          have := hp.nf
          omega
      obtain ⟨hg1, hg2⟩ := hp.mrg f hl s g' hm hc
      refine ⟨?_, ?_⟩
      · rcases hg1 with hg1 | ⟨i, hi, e⟩
        · exact Or.inl hg1
        · exact Or.inr ⟨i, by omega, e⟩
      · rw [hq'old]
        · exact hg2
        · have := hp.nf
          rcases hg1 with hg1 | ⟨i, hi, e⟩
          · have := h.lt _ hg1
            omega
          · omega
  refine ⟨QH.bind τ pos q' q1.nf 0 g t, by rw [hres, hp.nf], ?_⟩
  have hoppinj : ∀ f ∈ F, ∀ s, opp (C q) (f, s) = r → (f, s) = (g, t) := by
    intro f hf s e
    have := h.st.cx.opp_opp (r := (f, s)) hf
    rw [e] at this
    rw [← this]
  have hfold : ∀ f ∈ F, (QH.bind τ pos q' q1.nf 0 g t).fac f =
      if f = g then { q1.fac g with
        c := Function.update (q1.fac g).c t (some q1.nf)
        merge := Function.update (q1.fac g).merge t (bindFlag τ pos (q'.fac q1.nf) 0 (q1.fac g)) } else q1.fac f := by
    intro f hf
    have hne : f ≠ q1.nf := by have := h.lt f hf; rw [hp.nf]; omega
    rw [hfac, if_neg hne, hq'old _ hnfg, hq'old _ hne]
  refine ⟨?_, hp.fl, hp.vl, ?_, ?_, ?_, ?_, ?_, hmrg⟩
  · show q1.nf + 1 = _
    rw [hp.nf]; omega
  · intro f hf
    rw [hfold f hf]
    split
    · rename_i e; subst e
      rw [hgn]
    · exact hp.old f hf
  · intro f hf s hs
    rw [hfold f hf]
    have hs' : ∀ i < m, R i ≠ opp (C q) (f, s) := by
      intro i hi
      have := hs i (by omega)
      rwa [Function.update_of_ne (by omega)] at this
    split
    · rename_i e; subst e
      have hst : s ≠ t := by
        rintro rfl
        have := hs m (by omega)
        rw [Function.update_self, hoo] at this
        exact this rfl
      simp only [Function.update_of_ne hst]
      exact hp.keep g og s hs'
    · exact hp.keep f hf s hs'
  · intro f hf s i hi e
    rw [hfold f hf]
    by_cases him : i = m
    · subst him
      rw [Function.update_self] at e
      have := hoppinj f hf s e.symm
      simp only [Prod.mk.injEq] at this
      rw [if_pos this.1, this.2]
      simp only [Function.update_self, hp.nf]
    · rw [Function.update_of_ne him] at e
      have hh := hp.turn f hf s i (by omega) e
      split
      · rename_i e'; subst e'
        have hst : s ≠ t := by
          rintro rfl
          exact hnew i (by omega) (e.trans hoo)
        simp only [Function.update_of_ne hst]
        exact hh
      · exact hh
  · intro i hi
    by_cases him : i = m
    · subst him
      rw [hfac, if_pos (by rw [hp.nf]), hq'new, Function.update_self, Function.update_self, Function.update_self]
      unfold coneFacet facetCreate
      dsimp only
      congr 1
      ext1 s
      fin_cases s <;> simp [hgdef]
    · have h1 : q.nf + i ≠ q1.nf := by rw [hp.nf]; omega
      have h2 : q.nf + i ≠ g := by omega
      have hsame : (QH.bind τ pos q' q1.nf 0 g t).fac (q.nf + i) = q1.fac (q.nf + i) := by
        rw [hfac, if_neg h1, if_neg h2, hq'old _ h1]
      rw [hsame, Function.update_of_ne him, Function.update_of_ne him, Function.update_of_ne him]
      exact hp.new i (by omega)
  · intro v
    show (if v = a ∨ v = b then false else q1.discard v) = _
    rw [hp.disc]
    by_cases hab : v = a ∨ v = b
    · rw [if_pos hab, if_pos ⟨m, by omega, by rw [Function.update_self]; exact hab⟩]
    · rw [if_neg hab]
      congr 1
      apply propext
      constructor
      · rintro ⟨i, hi, e⟩
        exact ⟨i, by omega, by rw [Function.update_of_ne (by omega)]; exact e⟩
      · rintro ⟨i, hi, e⟩
        by_cases him : i = m
        · subst him; rw [Function.update_self] at e; exact absurd e hab
        · rw [Function.update_of_ne him] at e
          exact ⟨i, by omega, e⟩

/-- Linking two cells of the cone: the second edge of one with the third edge of the other. -/
theorem Part.link (h : Start τ pos ps K N q F T o) (hp : Part τ pos q q1 F o m R nx pv)
    {i j : ℕ} (hi : i < m) (hj : j < m) (hij : i ≠ j) {f1 f2 : ℕ} {s1 s2 : Fin 3}
    (hcase : (f1 = q.nf + i ∧ s1 = 1 ∧ f2 = q.nf + j ∧ s2 = 2) ∨ (f1 = q.nf + j ∧ s1 = 2 ∧ f2 = q.nf + i ∧ s2 = 1))
    (hflag : bindFlag τ pos (q1.fac f1) s1 (q1.fac f2) = true → (q1.fac f1).n = (q1.fac f2).n) :
    Part τ pos q (QH.bind τ pos q1 f1 s1 f2 s2) F o m R (Function.update nx i (some (q.nf + j)))
      (Function.update pv j (some (q.nf + i))) := by
  have hmrg : Mrg (QH.bind τ pos q1 f1 s1 f2 s2) (Live F q.nf m) := by
    refine bind_mrg hp.mrg ?_ ?_ ?_ hflag
    · rcases hcase with ⟨rfl, rfl, rfl, rfl⟩ | ⟨rfl, rfl, rfl, rfl⟩ <;> omega
    · rcases hcase with ⟨rfl, rfl, rfl, rfl⟩ | ⟨rfl, rfl, rfl, rfl⟩
      · exact Or.inr ⟨i, hi, rfl⟩
      · exact Or.inr ⟨j, hj, rfl⟩
    · rcases hcase with ⟨rfl, rfl, rfl, rfl⟩ | ⟨rfl, rfl, rfl, rfl⟩
      · exact Or.inr ⟨j, hj, rfl⟩
      · exact Or.inr ⟨i, hi, rfl⟩
  have hfac : ∀ k, (QH.bind τ pos q1 f1 s1 f2 s2).fac k =
      if k = q.nf + i then { q1.fac k with
        c := Function.update (q1.fac k).c 1 (some (q.nf + j))
        merge := ((QH.bind τ pos q1 f1 s1 f2 s2).fac k).merge }
      else if k = q.nf + j then { q1.fac k with
        c := Function.update (q1.fac k).c 2 (some (q.nf + i))
        merge := ((QH.bind τ pos q1 f1 s1 f2 s2).fac k).merge }
      else q1.fac k := by
    intro k
    rcases hcase with ⟨rfl, rfl, rfl, rfl⟩ | ⟨rfl, rfl, rfl, rfl⟩
    · rw [bind_fac (by omega)]
      split
      · rename_i e; rw [e]
      · split
        · rename_i e; rw [e]
        · rfl
    · rw [bind_fac (by omega)]
      by_cases h1 : k = q.nf + i
      · have h2 : k ≠ q.nf + j := by omega
        rw [if_neg h2, if_pos h1, if_pos h1, h1]
      · rw [if_neg h1, if_neg h1]
        split
        · rename_i e; rw [e]
        · rfl
  have hfold : ∀ f ∈ F, (QH.bind τ pos q1 f1 s1 f2 s2).fac f = q1.fac f := by
    intro f hf
    have := h.lt f hf
    rw [hfac, if_neg (by omega), if_neg (by omega)]
  refine ⟨hp.nf, hp.fl, hp.vl, ?_, ?_, ?_, ?_, hp.disc, hmrg⟩
  · intro f hf; rw [hfold f hf]; exact hp.old f hf
  · intro f hf; rw [hfold f hf]; exact hp.keep f hf
  · intro f hf; rw [hfold f hf]; exact hp.turn f hf
  · intro k hk
    by_cases h1 : k = i
    · subst h1
      rw [hfac, if_pos rfl, hp.new k hk, Function.update_self, Function.update_of_ne hij]
      unfold coneFacet
      dsimp only
      congr 1
      ext1 s
      fin_cases s <;> simp
    · by_cases h2 : k = j
      · subst h2
        rw [hfac, if_neg (by omega), if_pos rfl, hp.new k hk, Function.update_self, Function.update_of_ne h1]
        unfold coneFacet
        dsimp only
        congr 1
        ext1 s
        fin_cases s <;> simp
      · rw [hfac, if_neg (by omega), if_neg (by omega), Function.update_of_ne h1, Function.update_of_ne h2]
        exact hp.new k hk

/-- Two cells of the cone on successive ridges are merged only when they lie in a plane. -/
theorem cone_flag (h : Start τ pos ps K N q F T o) {r r' : ℕ × Fin 3} (hr : Ridge F (C q) (Vis ps (P q) o) r)
    (hr' : Ridge F (C q) (Vis ps (P q) o) r') (e : tgt (P q) r = src (P q) r') (a b a' b' : Option ℕ)
    (M M' : Fin 3 → Bool) :
    (bindFlag τ pos (coneFacet τ pos q o r' a' b' M') 2 (coneFacet τ pos q o r a b M) = true →
      (coneFacet τ pos q o r' a' b' M').n = (coneFacet τ pos q o r a b M).n) ∧
    (bindFlag τ pos (coneFacet τ pos q o r a b M) 1 (coneFacet τ pos q o r' a' b' M') = true →
      (coneFacet τ pos q o r a b M).n = (coneFacet τ pos q o r' a' b' M').n) := by
  have b1 := cone_bound h hr a b M
  have b2 := cone_bound h hr' a' b' M'
  have hT := h.st.ridge_T hr
  have hT' := h.st.ridge_T hr'
  have k1 := h.cone_inner hr
  have k2 := h.cone_inner hr'
  constructor
  · refine h.res.flag (s1 := 2) (s2 := 1) (k := K) (cone_normal _ _ _ _) (cone_normal _ _ _ _) b2 b1 e rfl ?_ ?_ ?_
    · have := h.cone_weak hr' (fun f hf => h.weak f hf _ hT.1)
      show vol (pos (tgt (P q) r')) (pos o) (pos (src (P q) r')) (pos (src (P q) r)) ≤ 0
      rw [← vol_cyc]; exact this
    · show vol (pos (tgt (P q) r')) (pos o) (pos (src (P q) r')) K < 0
      rw [← vol_cyc]; exact k2
    · show vol (pos (src (P q) r)) (pos (tgt (P q) r)) (pos o) K < 0
      rw [vol_cyc]; exact k1
  · refine h.res.flag (s1 := 1) (s2 := 2) (k := K) (cone_normal _ _ _ _) (cone_normal _ _ _ _) b1 b2 rfl e.symm ?_ ?_ ?_
    · have := h.cone_weak hr (fun f hf => h.weak f hf _ hT'.2)
      show vol (pos (src (P q) r)) (pos (tgt (P q) r)) (pos o) (pos (tgt (P q) r')) ≤ 0
      rw [vol_cyc]; exact this
    · show vol (pos (src (P q) r)) (pos (tgt (P q) r)) (pos o) K < 0
      rw [vol_cyc]; exact k1
    · show vol (pos (tgt (P q) r')) (pos o) (pos (src (P q) r')) K < 0
      rw [← vol_cyc]; exact k2

end
end Zeo.QHMesh

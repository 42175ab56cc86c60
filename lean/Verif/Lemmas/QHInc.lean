import Verif.Lemmas.QHAssign

/-! # One step of the incremental hull -/

namespace Zeo.QHMesh
noncomputable section
open Classical QHGeom Spec QH

variable {τ : ℝ} {pos ps : ℕ → Vec3 ℝ} {K : Vec3 ℝ} {N : ℕ}

/-- The points dealt with. -/
def Done (N : ℕ) (q : QH) (x : ℕ) : Prop := x < N ∧ ∀ f ∈ q.fl, x ∉ (q.fac f).op

/-- The hull under construction: `K` is a point inside. -/
structure Inv (τ : ℝ) (pos : ℕ → Vec3 ℝ) (N : ℕ) (K : Vec3 ℝ) (q : QH) : Prop where
  res : Res τ pos N
  nodup : q.fl.Nodup
  lt : ∀ f ∈ q.fl, f < q.nf
  cx : Complex q.fl.toFinset (P q) (C q)
  normal : ∀ f ∈ q.fl, NormalOK pos (q.fac f)
  mrg : ∀ f ∈ q.fl, ∀ s g, (q.fac f).merge s = true → (q.fac f).c s = some g → (q.fac f).n = (q.fac g).n
  flags : ∀ f ∈ q.fl, (q.fac f).visible = false ∧ (q.fac f).check = false
  op : ∀ f ∈ q.fl, ∀ x ∈ (q.fac f).op, x < N ∧ 0 ≤ D pos (P q) f x
  opnd : ∀ f ∈ q.fl, (q.fac f).op.Nodup
  opdis : ∀ f ∈ q.fl, ∀ g ∈ q.fl, ∀ x, x ∈ (q.fac f).op → x ∈ (q.fac g).op → f = g
  weak : ∀ f ∈ q.fl, ∀ x, Done N q x → D pos (P q) f x ≤ 0
  inner : ∀ f ∈ q.fl, H pos (P q) f K < 0
  pert : ∀ δ > 0, ∃ ps : ℕ → Vec3 ℝ, (∀ v, Near δ (pos v) (ps v)) ∧
    ∀ f ∈ q.fl, ∀ x ∈ q.vl, (∀ s, P q f s ≠ x) → D ps (P q) f x < 0
  vlnd : q.vl.Nodup
  vldone : ∀ v ∈ q.vl, Done N q v
  cvl : ∀ f ∈ q.fl, ∀ s, P q f s ∈ q.vl
  disc : ∀ v ∈ q.vl, q.discard v = false ↔ ∃ f ∈ q.fl, ∃ s, P q f s = v
  disc0 : ∀ v, v ∉ q.vl → q.discard v = false
  ne : q.fl ≠ []
  dist : (0 < τ ∨ ∀ a < N, ∀ b < N, pos a = pos b → a = b) → ∀ f ∈ q.fl, ∀ g ∈ q.fl, ∀ s t,
    pos (P q f s) = pos (P q g t) → P q f s = P q g t
  ext : 0 < τ → ∀ f ∈ q.fl, ∀ s, ∃ w, ∀ y, Done N q y → pos y ≠ pos (P q f s) →
    dot w (pos y) < dot w (pos (P q f s))

variable {q : QH}

theorem Inv.corner (h : Inv τ pos N K q) {f : ℕ} (hf : f ∈ q.fl) (s : Fin 3) : Done N q (P q f s) :=
  h.vldone _ (h.cvl f hf s)

theorem Inv.proper (h : Inv τ pos N K q) {f : ℕ} (hf : f ∈ q.fl) :
    triNormal (pos ((q.fac f).p 0), pos ((q.fac f).p 1), pos ((q.fac f).p 2)) ≠ .zero :=
  proper_of_vol (x := K) (h.inner f hf).ne

/-- Places close to the points where nothing is degenerate, with the same facets visible from `x`. -/
structure View (pos ps : ℕ → Vec3 ℝ) (q : QH) (x : ℕ) : Prop where
  st : Setting ps q.fl.toFinset (P q) (C q) (· ∈ q.vl) x
  real : ∀ g ∈ q.fl, Vis ps (P q) x g ↔ 0 ≤ D pos (P q) g x

theorem near_mono {δ δ' : ℝ} (h : δ ≤ δ') {a b : Vec3 ℝ} (hn : Near δ a b) : Near δ' a b :=
  ⟨hn.1.trans h, hn.2.1.trans h, hn.2.2.trans h⟩

/-- The setting when the next point is taken. -/
theorem Inv.view (h : Inv τ pos N K q) {f x : ℕ} (hf : f ∈ q.fl) (hx : x ∈ (q.fac f).op) {δ : ℝ} (hδ : 0 < δ) :
    ∃ ps, (∀ v, Near δ (pos v) (ps v)) ∧ View pos ps q x := by
  have hxvl : x ∉ q.vl := fun hd => (h.vldone x hd).2 f hf hx
  have hne : ∀ g ∈ q.fl, ∀ s, P q g s ≠ x := fun g hg s e => hxvl (e ▸ h.cvl g hg s)
  let X : ℝ → Vec3 ℝ := fun ε => ⟨(pos x).x + ε * ((pos x).x - K.x), (pos x).y + ε * ((pos x).y - K.y),
    (pos x).z + ε * ((pos x).z - K.z)⟩
  have hX : ∀ g ε, H pos (P q) g (X ε) = (1 + ε) * D pos (P q) g x - ε * H pos (P q) g K := by
    intro g ε
    simp only [H, D, vol_eq, X]; ring
  have ev1 : ∀ᶠ ε in nhdsWithin (0:ℝ) (Set.Ioi 0), ∀ g ∈ q.fl.toFinset, D pos (P q) g x < 0 → H pos (P q) g (X ε) < 0 := by
    rw [Filter.eventually_all_finset]
    intro g _
    by_cases hd : D pos (P q) g x < 0
    · have hc : Continuous fun ε : ℝ => (1 + ε) * D pos (P q) g x - ε * H pos (P q) g K := by fun_prop
      have : ∀ᶠ ε in nhds (0:ℝ), (1 + ε) * D pos (P q) g x - ε * H pos (P q) g K < 0 :=
        hc.continuousAt.eventually (Iio_mem_nhds (by simpa using hd))
      filter_upwards [this.filter_mono nhdsWithin_le_nhds] with ε hε _
      rw [hX]; exact hε
    · exact Filter.Eventually.of_forall fun ε h => absurd h hd
  have ev2 : ∀ᶠ ε in nhdsWithin (0:ℝ) (Set.Ioi 0), Near δ (pos x) (X ε) := by
    have key : ∀ c : ℝ, ∀ᶠ ε in nhdsWithin (0:ℝ) (Set.Ioi 0), |ε * c| < δ := by
      intro c
      have hc : Continuous fun ε : ℝ => |ε * c| := by fun_prop
      exact (hc.continuousAt.eventually (Iio_mem_nhds (by simpa using hδ))).filter_mono nhdsWithin_le_nhds
    filter_upwards [key ((pos x).x - K.x), key ((pos x).y - K.y), key ((pos x).z - K.z)] with ε h1 h2 h3
    refine ⟨?_, ?_, ?_⟩
    · rw [show (pos x).x - (X ε).x = -(ε * ((pos x).x - K.x)) by simp only [X]; ring, abs_neg]; exact h1.le
    · rw [show (pos x).y - (X ε).y = -(ε * ((pos x).y - K.y)) by simp only [X]; ring, abs_neg]; exact h2.le
    · rw [show (pos x).z - (X ε).z = -(ε * ((pos x).z - K.z)) by simp only [X]; ring, abs_neg]; exact h3.le
  obtain ⟨ε, ⟨hε1, hε2⟩, hε⟩ := ((ev1.and ev2).and self_mem_nhdsWithin).exists
  have hε0 : 0 < ε := hε
  have hpos : ∀ g ∈ q.fl.toFinset, 0 ≤ D pos (P q) g x → 0 < H pos (P q) g (X ε) := by
    intro g hg hd
    rw [hX]
    have := h.inner g (List.mem_toFinset.1 hg)
    nlinarith [mul_pos hε0 (neg_pos.2 this), mul_nonneg (by linarith : (0:ℝ) ≤ 1 + ε) hd]
  have near_refl : ∀ (d : ℝ) (a : Vec3 ℝ), 0 < d → Near d a a := by
    intro d a hd
    refine ⟨?_, ?_, ?_⟩ <;> (rw [sub_self, abs_zero]; exact hd.le)
  have ev3 : ∀ᶠ d in nhdsWithin (0:ℝ) (Set.Ioi 0), ∀ g ∈ q.fl.toFinset, ∀ a b c, Near d (pos (P q g 0)) a →
      Near d (pos (P q g 1)) b → Near d (pos (P q g 2)) c →
      (D pos (P q) g x < 0 → vol a b c (X ε) < 0) ∧ (0 ≤ D pos (P q) g x → 0 < vol a b c (X ε)) := by
    rw [Filter.eventually_all_finset]
    intro g hg
    by_cases hd : D pos (P q) g x < 0
    · filter_upwards [vol_near (hε1 g hg hd), self_mem_nhdsWithin] with d h1 h2 a b c ha hb hc
      exact ⟨fun _ => h1 a b c _ ha hb hc (near_refl _ _ h2), fun h => absurd hd (not_lt.2 h)⟩
    · filter_upwards [vol_near' (hpos g hg (not_lt.1 hd)), self_mem_nhdsWithin] with d h1 h2 a b c ha hb hc
      exact ⟨fun h => absurd h hd, fun _ => h1 a b c _ ha hb hc (near_refl _ _ h2)⟩
  obtain ⟨d, hd1, hd2⟩ := (ev3.and (Ioo_mem_nhdsGT hδ)).exists
  obtain ⟨ps0, hn0, hc0⟩ := h.pert d hd2.1
  have hup : ∀ y, y ≠ x → Function.update ps0 x (X ε) y = ps0 y := fun y hy => Function.update_of_ne hy _ _
  have hself : Function.update ps0 x (X ε) x = X ε := Function.update_self _ _ _
  have hD : ∀ g ∈ q.fl, D (Function.update ps0 x (X ε)) (P q) g x =
      vol (ps0 (P q g 0)) (ps0 (P q g 1)) (ps0 (P q g 2)) (X ε) := by
    intro g hg
    unfold D
    rw [hself, hup _ (hne g hg 0), hup _ (hne g hg 1), hup _ (hne g hg 2)]
  have hsign : ∀ g ∈ q.fl, (D pos (P q) g x < 0 → D (Function.update ps0 x (X ε)) (P q) g x < 0) ∧
      (0 ≤ D pos (P q) g x → 0 < D (Function.update ps0 x (X ε)) (P q) g x) := by
    intro g hg
    rw [hD g hg]
    exact hd1 g (List.mem_toFinset.2 hg) _ _ _ (hn0 _) (hn0 _) (hn0 _)
  refine ⟨Function.update ps0 x (X ε), ?_, ⟨h.cx, ?_, ?_, ?_, hxvl⟩, ?_⟩
  · intro v
    by_cases hv : v = x
    · subst hv; rw [hself]; exact hε2
    · rw [hup v hv]; exact near_mono hd2.2.le (hn0 v)
  · exact fun g hg s => h.cvl g (List.mem_toFinset.1 hg) s
  · intro g hg y hy hys
    have hg' := List.mem_toFinset.1 hg
    have hyx : y ≠ x := fun e => hxvl (e ▸ hy)
    have := hc0 g hg' y hy hys
    unfold D at this ⊢
    rw [hup _ hyx, hup _ (hne g hg' 0), hup _ (hne g hg' 1), hup _ (hne g hg' 2)]
    exact this
  · intro g hg
    have := hsign g (List.mem_toFinset.1 hg)
    rcases lt_or_ge (D pos (P q) g x) 0 with hd | hd
    · exact (this.1 hd).ne
    · exact (this.2 hd).ne'
  · intro g hg
    have := hsign g hg
    constructor
    · intro hv
      by_contra hc
      exact absurd (this.1 (not_le.1 hc)) (not_lt.2 (le_of_lt hv))
    · exact this.2

/-- The side of a point and the normal vector of a proper facet. -/
theorem side_normal {f : QFacet} (hn : NormalOK pos f)
    (hp : triNormal (pos (f.p 0), pos (f.p 1), pos (f.p 2)) ≠ .zero) (s : Fin 3) (X : Vec3 ℝ) :
    0 ≤ vol (pos (f.p 0)) (pos (f.p 1)) (pos (f.p 2)) X ↔ 0 ≤ dot f.n (X.sub (pos (f.p s))) := by
  have e : ∀ s, vol (pos (f.p 0)) (pos (f.p 1)) (pos (f.p 2)) X =
      vol (pos (f.p s)) (pos (f.p (s + 1))) (pos (f.p (s + 2))) X := fun s => (H_rot pos (fun _ => f.p) 0 X s).symm
  have hp' : triNormal (pos (f.p s), pos (f.p (s + 1)), pos (f.p (s + 2))) ≠ .zero := by
    fin_cases s
    · exact hp
    · exact fun h => hp ((triNormal_cyc _ _ _).symm.trans h)
    · exact fun h => hp ((triNormal_cyc (pos (f.p 2)) _ _).trans h)
  rw [e s, rot_normal hn s]
  unfold unitNormal
  rw [dot_unit]
  set n := triNormal (pos (f.p s), pos (f.p (s + 1)), pos (f.p (s + 2))) with hnd
  have hs : 0 < Real.sqrt (n.x ^ 2 + n.y ^ 2 + n.z ^ 2) := by
    apply Real.sqrt_pos.2
    by_contra hc
    apply hp'
    ext <;> simp only [Vec3.zero] <;> nlinarith [sq_nonneg n.x, sq_nonneg n.y, sq_nonneg n.z]
  rw [le_div_iff₀ hs, zero_mul]
  rfl

/-- Facets that are merged are visible together. -/
theorem Inv.merged (h : Inv τ pos N K q) {x f g : ℕ} {s : Fin 3} (hf : f ∈ q.fl) (hm : (q.fac f).merge s = true)
    (hc : (q.fac f).c s = some g) : g ∈ q.fl ∧ (0 ≤ D pos (P q) f x ↔ 0 ≤ D pos (P q) g x) := by
  obtain ⟨g', hg', t, e1, -, e3, -, -⟩ := h.cx.adj f (List.mem_toFinset.2 hf) s
  obtain rfl : g' = g := Option.some.inj (e1.symm.trans hc)
  have hg := List.mem_toFinset.1 hg'
  refine ⟨hg, ?_⟩
  have k1 := side_normal (h.normal f hf) (h.proper hf) (s + 2) (pos x)
  have k2 := side_normal (h.normal g' hg) (h.proper hg) (t + 1) (pos x)
  have e3' : (q.fac g').p (t + 1) = (q.fac f).p (s + 2) := e3
  rw [e3', ← h.mrg f hf s g' hm hc] at k2
  exact k1.trans k2.symm

/-- The test agrees with visibility. -/
theorem Inv.test (h : Inv τ pos N K q) (hw : View pos ps q x) (hx : x < N)
    {g : ℕ} (hg : g ∈ q.fl) (h0 : testBB τ pos (q.fac g) x ≠ 0) :
    (Vis ps (P q) x g ∧ testBB τ pos (q.fac g) x = 1) ∨ (¬ Vis ps (P q) x g ∧ testBB τ pos (q.fac g) x = -1) := by
  rcases h.res.test (h.normal g hg) (fun s => (h.corner hg s).1) (h.proper hg) hx with ⟨h1, h2, -⟩ | ⟨h1, h2⟩ | ⟨-, h2⟩
  · exact Or.inl ⟨(hw.real g hg).2 h1, h2⟩
  · exact Or.inr ⟨fun hv => absurd ((hw.real g hg).1 hv) (not_le.2 h1), h2⟩
  · exact absurd h2 h0

/-- The state after the visible facets were taken out. -/
structure Cut (τ : ℝ) (pos ps : ℕ → Vec3 ℝ) (K : Vec3 ℝ) (N : ℕ) (q q2 : QH) (x : ℕ) (vs pl : List ℕ) : Prop where
  start : Start τ pos ps K N q2 q.fl.toFinset (· ∈ q.vl) x
  p : P q2 = P q
  c : C q2 = C q
  nf : q2.nf = q.nf
  mvs : ∀ f, f ∈ vs ↔ f ∈ q.fl.toFinset ∧ Vis ps (P q) x f
  vsnd : vs.Nodup
  fl : q2.fl = q.fl.filter fun f => ¬ Vis ps (P q) x f
  vl : q2.vl = q.vl ++ [x]
  disc : ∀ v, q2.discard v = (q.discard v || decide (∃ f ∈ q.fl, Vis ps (P q) x f ∧ ∃ s, P q f s = v))
  fac : ∀ f ∈ q.fl, ¬ Vis ps (P q) x f → q2.fac f = q.fac f
  mpl : ∀ y, y ∈ pl ↔ y ≠ x ∧ ∃ f ∈ q.fl, Vis ps (P q) x f ∧ y ∈ (q.fac f).op
  plnd : pl.Nodup

theorem Inv.cut (h : Inv τ pos N K q) {f x : ℕ} (hf : f ∈ q.fl) (hx : (q.fac f).op.getLast? = some x)
    (hw : View pos ps q x) (h0 : ∀ g ∈ q.fl, testBB τ pos (q.fac g) x ≠ 0) :
    ∃ q1 vs pl, visibleSet τ pos (q.set f { q.fac f with op := (q.fac f).op.dropLast }) x = some (q1, vs, pl) ∧
      Cut τ pos ps K N q { q1 with vl := q1.vl ++ [x] } x vs pl := by
  set q0 := q.set f { q.fac f with op := (q.fac f).op.dropLast } with hq0
  have hxo : x ∈ (q.fac f).op := List.mem_of_getLast? hx
  have hdl : (q.fac f).op = (q.fac f).op.dropLast ++ [x] := (List.dropLast_append_getLast? x hx).symm
  have hdn : (q.fac f).op.dropLast.Nodup ∧ x ∉ (q.fac f).op.dropLast := by
    have := h.opnd f hf
    rw [hdl, List.nodup_append] at this
    exact ⟨this.1, fun hm => this.2.2 x hm x (by simp) rfl⟩
  have hst := hw.st
  have hfac0 : ∀ i, q0.fac i = if i = f then { q.fac f with op := (q.fac f).op.dropLast } else q.fac i := by
    intro i
    by_cases hi : i = f
    · subst hi; rw [if_pos rfl]; exact Function.update_self _ _ _
    · rw [if_neg hi]; exact Function.update_of_ne hi _ _
  have hsame : ∀ i, q0.fac i = { q.fac i with op := (q0.fac i).op } := by
    intro i
    rw [hfac0 i]
    split
    · rename_i e; rw [e]
    · rfl
  have hfv : Vis ps (P q) x f := (hw.real f hf).2 (h.op f hf x hxo).2
  have hop0 : ∀ i ∈ q.fl, ∀ y, y ∈ (q0.fac i).op ↔ y ≠ x ∧ y ∈ (q.fac i).op := by
    intro i hi y
    rw [hfac0 i]
    split
    · rename_i e
      subst e
      dsimp only
      constructor
      · intro hy
        exact ⟨fun e => hdn.2 (e ▸ hy), List.mem_of_mem_dropLast hy⟩
      · rintro ⟨h1, h2⟩
        rw [hdl] at h2
        rcases List.mem_append.1 h2 with h3 | h3
        · exact h3
        · exact absurd (List.mem_singleton.1 h3) h1
    · rename_i e
      constructor
      · intro hy
        exact ⟨fun e' => e (h.opdis i hi f hf x (e' ▸ hy) hxo), hy⟩
      · exact fun h => h.2
  have hopnd0 : ∀ i ∈ q.fl, (q0.fac i).op.Nodup := by
    intro i hi
    rw [hfac0 i]
    split
    · exact hdn.1
    · exact h.opnd i hi
  have hv : visLoop τ pos x q.fl q0 = some (markSet q0 fun i => i ∈ q.fl ∧ Vis ps (P q) x i) := by
    obtain ⟨S, s1, -, s3, s4⟩ := visLoop_spec (τ := τ) (pos := pos) x (fun i => i ∈ q.fl ∧ Vis ps (P q) x i) q0
      (by
        rintro i ⟨hi, hv⟩ s g
        rw [hsame i]
        intro hm hc
        obtain ⟨hg, hiff⟩ := h.merged (x := x) hi hm hc
        exact ⟨hg, (hw.real g hg).2 (hiff.1 ((hw.real i hi).1 hv))⟩)
      (fun i hi => by rw [hsame i]; exact (h.flags i hi.1).2) q.fl (fun _ => False) (fun _ h => h.elim)
      (fun i hi => by
        rw [testBB_congr (g := q.fac i) (by rw [hsame i]) (by rw [hsame i])]
        rcases h.test hw (h.op f hf x hxo).1 hi (h0 i hi) with ⟨h1, h2⟩ | ⟨h1, h2⟩
        · exact Or.inl ⟨⟨hi, h1⟩, h2⟩
        · exact Or.inr ⟨fun h => h1 h.2, h2⟩)
    have e0 : markSet q0 (fun _ => False) = q0 := by unfold markSet; simp
    have eS : S = fun i => i ∈ q.fl ∧ Vis ps (P q) x i := by
      ext i; exact ⟨s1 i, fun hi => s3 i hi.1 hi⟩
    rw [e0, eS] at s4
    exact s4
  set qv : QH := { q0 with fac := fun i => if i ∈ q.fl ∧ Vis ps (P q) x i then marked (q0.fac i) else q0.fac i } with hqv
  have hqvfac : ∀ i, qv.fac i = if i ∈ q.fl ∧ Vis ps (P q) x i then marked (q0.fac i) else q0.fac i := fun _ => rfl
  have hvisq : ∀ i ∈ q.fl, (qv.fac i).visible = decide (Vis ps (P q) x i) := by
    intro i hi
    rw [hqvfac]
    by_cases hc : Vis ps (P q) x i
    · rw [if_pos ⟨hi, hc⟩, decide_eq_true hc]; rfl
    · rw [if_neg (by tauto), decide_eq_false hc, hsame i]; exact (h.flags i hi).1
  have hfl0 : q0.fl = q.fl := rfl
  have hflv : qv.fl = q.fl := rfl
  set vs := q.fl.filter fun i => decide (Vis ps (P q) x i) with hvs
  have hvs1 : (qv.fl.filter fun i => (qv.fac i).visible) = vs := by
    rw [hflv, hvs]
    exact List.filter_congr fun i hi => hvisq i hi
  have hvs2 : (qv.fl.filter fun i => ¬ (qv.fac i).visible) = q.fl.filter fun i => ¬ Vis ps (P q) x i := by
    rw [hflv]
    refine List.filter_congr fun i hi => ?_
    rw [hvisq i hi]; simp
  have hmv : ∀ i, i ∈ vs ↔ i ∈ q.fl ∧ Vis ps (P q) x i := by intro i; rw [hvs, List.mem_filter]; simp
  have hpc : ∀ i, (qv.fac i).p = (q.fac i).p ∧ (qv.fac i).c = (q.fac i).c ∧ (qv.fac i).n = (q.fac i).n ∧
      (qv.fac i).merge = (q.fac i).merge ∧ (qv.fac i).op = (q0.fac i).op := by
    intro i
    rw [hqvfac]
    split <;> (rw [hsame i]; exact ⟨rfl, rfl, rfl, rfl, rfl⟩)
  have hvs' : visibleSet τ pos q0 x = some ({ qv with
        fl := q.fl.filter fun i => ¬ Vis ps (P q) x i
        fac := fun i => if i ∈ vs then { qv.fac i with op := [] } else qv.fac i
        discard := fun v => qv.discard v || decide (∃ f ∈ vs, ∃ s, (qv.fac f).p s = v) },
      vs.reverse, vs.foldl (fun l f => (qv.fac f).op ++ l) []) := by
    unfold visibleSet
    have hv' : visLoop τ pos x q.fl q0 = some qv := by
      rw [hv, hqv]
      unfold markSet
      congr 2
      ext1 i
      dsimp only
      congr
    rw [hfl0, hv', Option.map_some]
    simp only [hvs1, hvs2]
  refine ⟨_, _, _, hvs', ?_⟩
  set q1 : QH := { qv with
        fl := q.fl.filter fun i => ¬ Vis ps (P q) x i
        fac := fun i => if i ∈ vs then { qv.fac i with op := [] } else qv.fac i
        discard := fun v => qv.discard v || decide (∃ f ∈ vs, ∃ s, (qv.fac f).p s = v) } with hq1
  have hfac1 : ∀ i, q1.fac i = if i ∈ vs then { qv.fac i with op := [] } else qv.fac i := fun _ => rfl
  have hp1 : ∀ i, (q1.fac i).p = (q.fac i).p ∧ (q1.fac i).c = (q.fac i).c ∧ (q1.fac i).n = (q.fac i).n ∧
      (q1.fac i).merge = (q.fac i).merge ∧ (q1.fac i).visible = (qv.fac i).visible := by
    intro i
    obtain ⟨e1, e2, e3, e4, -⟩ := hpc i
    rw [hfac1]
    split
    · exact ⟨e1, e2, e3, e4, rfl⟩
    · exact ⟨e1, e2, e3, e4, rfl⟩
  have hP : P { q1 with vl := q1.vl ++ [x] } = P q := by ext i s; exact congrFun (hp1 i).1 s
  have hC : C { q1 with vl := q1.vl ++ [x] } = C q := by ext1 i; exact (hp1 i).2.1
  refine ⟨⟨h.res, ?_, ?_, ?_, fun y hy => (h.vldone y hy).1, (h.op f hf x hxo).1, ?_, ?_, ?_, ?_, ?_⟩, hP, hC, rfl, ?_, ?_, rfl, rfl, ?_, ?_, ?_, ?_⟩
  · rw [hP, hC]; exact hst
  · exact fun i hi => h.lt i (List.mem_toFinset.1 hi)
  · intro i hi
    have := h.normal i (List.mem_toFinset.1 hi)
    unfold NormalOK at this ⊢
    show (q1.fac i).n = unitNormal (pos ((q1.fac i).p 0)) (pos ((q1.fac i).p 1)) (pos ((q1.fac i).p 2))
    rw [(hp1 i).1, (hp1 i).2.2.1]; exact this
  · intro i hi
    rw [hP]
    exact (hp1 i).2.2.2.2.trans (hvisq i (List.mem_toFinset.1 hi))
  · intro i hi
    rw [hP]; exact hw.real i (List.mem_toFinset.1 hi)
  · intro i hi y hy
    rw [hP]; exact h.weak i (List.mem_toFinset.1 hi) y (h.vldone y hy)
  · intro i hi
    rw [hP]; exact h.inner i (List.mem_toFinset.1 hi)
  · intro i hi s g hm hc
    show (q1.fac i).n = (q1.fac g).n
    rw [(hp1 i).2.2.1, (hp1 g).2.2.1]
    refine h.mrg i (List.mem_toFinset.1 hi) s g ?_ ?_
    · rw [← (hp1 i).2.2.2.1]; exact hm
    · rw [← (hp1 i).2.1]; exact hc
  · intro i; rw [List.mem_reverse, hmv, List.mem_toFinset]
  · exact List.nodup_reverse.2 (h.nodup.filter _)
  · intro v
    show (qv.discard v || decide (∃ f ∈ vs, ∃ s, (qv.fac f).p s = v)) = _
    have : (∃ f ∈ vs, ∃ s, (qv.fac f).p s = v) ↔ ∃ f ∈ q.fl, Vis ps (P q) x f ∧ ∃ s, P q f s = v := by
      simp only [hmv, and_assoc, (hpc _).1]
    rw [decide_eq_decide.2 this]
    rfl
  · intro i hi hc
    show q1.fac i = _
    rw [hfac1, if_neg (by rw [hmv]; tauto), hqvfac, if_neg (by tauto), hfac0]
    rw [if_neg (by rintro rfl; exact hc hfv)]
  · intro y
    rw [foldl_op]
    simp only [List.not_mem_nil, false_or, hmv, (hpc _).2.2.2.2, and_assoc]
    constructor
    · rintro ⟨i, hi, hc, hy⟩
      have := (hop0 i hi y).1 hy
      exact ⟨this.1, i, hi, hc, this.2⟩
    · rintro ⟨hyx, i, hi, hc, hy⟩
      exact ⟨i, hi, hc, (hop0 i hi y).2 ⟨hyx, hy⟩⟩
  · refine foldl_op_nodup _ _ (h.nodup.filter _) ?_ ?_ [] List.nodup_nil (by simp)
    · intro i hi
      rw [(hpc i).2.2.2.2]; exact hopnd0 i ((hmv i).1 hi).1
    · intro i hi j hj y hy hy'
      rw [(hpc i).2.2.2.2] at hy
      rw [(hpc j).2.2.2.2] at hy'
      have hi' := ((hmv i).1 hi).1
      have hj' := ((hmv j).1 hj).1
      exact h.opdis i hi' j hj' y ((hop0 i hi' y).1 hy).2 ((hop0 j hj' y).1 hy').2

/-- The state after one step. -/
structure Next (τ : ℝ) (pos ps : ℕ → Vec3 ℝ) (q q' : QH) (x m : ℕ) (R : ℕ → ℕ × Fin 3) (pl : List ℕ) : Prop where
  mtwo : 1 < m
  ridge : ∀ i < m, Ridge q.fl.toFinset (C q) (Vis ps (P q) x) (R i)
  inj : ∀ i < m, ∀ j < m, R i = R j → i = j
  chain : ∀ i, i + 1 < m → tgt (P q) (R i) = src (P q) (R (i + 1))
  close : tgt (P q) (R (m - 1)) = src (P q) (R 0)
  nf : q'.nf = q.nf + m
  fl : q'.fl = (q.fl.filter fun f => ¬ Vis ps (P q) x f) ++ cells q.nf m
  vl : q'.vl = q.vl ++ [x]
  old : ∀ f ∈ q.fl, ¬ Vis ps (P q) x f → 
    q'.fac f = { q.fac f with c := (q'.fac f).c, merge := (q'.fac f).merge }
  keep : ∀ f ∈ q.fl, ¬ Vis ps (P q) x f → ∀ s, (∀ i < m, R i ≠ opp (C q) (f, s)) → C q' f s = C q f s
  turn : ∀ f ∈ q.fl, ¬ Vis ps (P q) x f → ∀ s, ∀ i < m, R i = opp (C q) (f, s) → C q' f s = some (q.nf + i)
  new : ∀ i < m, q'.fac (q.nf + i) = { coneFacet τ pos q x (R i) (some (q.nf + (if i + 1 < m then i + 1 else 0)))
      (some (q.nf + (if i = 0 then m - 1 else i - 1))) (q'.fac (q.nf + i)).merge with
        op := (q'.fac (q.nf + i)).op, dmax := (q'.fac (q.nf + i)).dmax }
  disc : ∀ v, q'.discard v = if ∃ i < m, v = src (P q) (R i) ∨ v = tgt (P q) (R i) then false else
    (q.discard v || decide (∃ f ∈ q.fl, Vis ps (P q) x f ∧ ∃ s, P q f s = v))
  opm : ∀ i < m, ∀ y ∈ (q'.fac (q.nf + i)).op, y ∈ pl ∧ 0 ≤ D pos (P q') (q.nf + i) y
  opnd : ∀ i < m, (q'.fac (q.nf + i)).op.Nodup
  opdis : ∀ i < m, ∀ j < m, ∀ y, y ∈ (q'.fac (q.nf + i)).op → y ∈ (q'.fac (q.nf + j)).op → i = j
  rest : ∀ y ∈ pl, (∃ i < m, y ∈ (q'.fac (q.nf + i)).op) ∨
    (∃ i < m, pos y ∈ triangle (pos x) (pos (src (P q) (R i))) (pos (tgt (P q) (R i)))) ∨
    ∀ i < m, D pos (P q') (q.nf + i) y < 0
  mrg : ∀ f ∈ q'.fl, ∀ s g, (q'.fac f).merge s = true → (q'.fac f).c s = some g → (q'.fac f).n = (q'.fac g).n
  mpl : ∀ y, y ∈ pl ↔ y ≠ x ∧ ∃ f ∈ q.fl, Vis ps (P q) x f ∧ y ∈ (q.fac f).op

theorem mem_cells {b m i : ℕ} : i ∈ cells b m ↔ ∃ k < m, i = b + k := by
  unfold cells
  simp only [List.mem_map, List.mem_range]
  constructor
  · rintro ⟨k, hk, rfl⟩; exact ⟨k, hk, rfl⟩
  · rintro ⟨k, hk, rfl⟩; exact ⟨k, hk, rfl⟩

theorem cells_nodup (b m : ℕ) : (cells b m).Nodup :=
  List.Nodup.map (fun _ _ h => Nat.add_left_cancel h) List.nodup_range

theorem Inv.next (h : Inv τ pos N K q) {f x : ℕ} (hf : f ∈ q.fl) (hx : (q.fac f).op.getLast? = some x)
    (hw : View pos ps q x) (h0 : ∀ g ∈ q.fl, testBB τ pos (q.fac g) x ≠ 0) :
    ∃ q' m R pl, inc τ pos q f = (true, q') ∧ Next τ pos ps q q' x m R pl := by
  have hxo : x ∈ (q.fac f).op := List.mem_of_getLast? hx
  obtain ⟨q1, vs, pl, e1, hc⟩ := h.cut hf hx hw h0
  set q2 : QH := { q1 with vl := q1.vl ++ [x] } with hq2
  have hvs : ∀ f, f ∈ vs ↔ f ∈ q.fl.toFinset ∧ Vis ps (P q2) x f := by rw [hc.p]; exact hc.mvs
  have hfvs : f ∈ vs := (hc.mvs f).2 ⟨List.mem_toFinset.2 hf, (hw.real f hf).2 (h.op f hf x hxo).2⟩
  obtain ⟨q3, m, R, e2, hn⟩ := horizon_spec hc.start vs hvs hc.vsnd hfvs
  obtain ⟨nx, pv, hp, hnx, hpv⟩ := hn.part
  have hnew : ∀ i < m, q3.fac (q.nf + i) = coneFacet τ pos q x (R i) (some (q.nf + (if i + 1 < m then i + 1 else 0)))
      (some (q.nf + (if i = 0 then m - 1 else i - 1))) (q3.fac (q.nf + i)).merge := by
    intro i hi
    have := hp.new i hi
    rw [hnx i hi, hpv i hi, hc.nf] at this
    refine this.trans ?_
    unfold coneFacet
    rw [hc.p, hc.c]
  have hplN : ∀ y ∈ pl, y < N := by
    intro y hy
    obtain ⟨-, g, hg, -, hyg⟩ := (hc.mpl y).1 hy
    exact (h.op g hg y hyg).1
  have hridge : ∀ i < m, Ridge q.fl.toFinset (C q) (Vis ps (P q) x) (R i) := by
    have := hn.ridge
    rw [hc.p, hc.c] at this
    exact this
  have hpq : ∀ i < m, (q3.fac (q.nf + i)).p = ![x, src (P q) (R i), tgt (P q) (R i)] := by
    intro i hi
    rw [hnew i hi]; rfl
  have htest : ∀ i < m, ∀ y ∈ pl,
      (0 ≤ D pos (P q3) (q.nf + i) y ∧ testBB τ pos (q3.fac (q.nf + i)) y = 1) ∨
      (D pos (P q3) (q.nf + i) y < 0 ∧ testBB τ pos (q3.fac (q.nf + i)) y = -1) ∨
      (pos y ∈ triangle (pos x) (pos (src (P q) (R i))) (pos (tgt (P q) (R i))) ∧
        testBB τ pos (q3.fac (q.nf + i)) y = 0) := by
    intro i hi y hy
    have hr : Ridge q.fl.toFinset (C q2) (Vis ps (P q2) x) (R i) := hn.ridge i hi
    have hq3 : q3.fac (q.nf + i) = coneFacet τ pos q2 x (R i) (nx i) (pv i) (q3.fac (q.nf + i)).merge := by
      have := hp.new i hi
      rw [hc.nf] at this
      exact this
    have k2 := cone_bound hc.start hr (nx i) (pv i) (q3.fac (q.nf + i)).merge
    have k3 := hc.start.cone_inner hr
    rw [hc.p] at k3
    have hnm : NormalOK pos (q3.fac (q.nf + i)) := by rw [hq3]; exact cone_normal _ _ _ _
    have hbd : ∀ s, (q3.fac (q.nf + i)).p s < N := by rw [hq3]; exact k2
    have := h.res.test (f := q3.fac (q.nf + i)) hnm hbd (by rw [hpq i hi]; exact proper_of_vol k3.ne) (hplN y hy)
    rcases this with ⟨t1, t2, -⟩ | t | ⟨t1, t2⟩
    · exact Or.inl ⟨t1, t2⟩
    · exact Or.inr (Or.inl t)
    · rw [hpq i hi] at t1
      exact Or.inr (Or.inr ⟨t1, t2⟩)
  obtain ⟨q4, rest, e3, ha⟩ := assign_spec (τ := τ) (pos := pos) (cells q.nf m) q3 pl (cells_nodup _ _) hc.plnd
    (by
      intro i hi
      obtain ⟨k, hk, rfl⟩ := mem_cells.1 hi
      rw [hnew k hk]; rfl)
  have hin : ∀ i < m, q.nf + i ∈ cells q.nf m := fun i hi => mem_cells.2 ⟨i, hi, rfl⟩
  have hout : ∀ g ∈ q.fl, g ∉ cells q.nf m := by
    intro g hg hm
    obtain ⟨k, -, rfl⟩ := mem_cells.1 hm
    have := h.lt _ hg
    omega
  have hDeq : ∀ i < m, ∀ y, D pos (P { q4 with fl := q4.fl ++ cells q.nf m }) (q.nf + i) y = D pos (P q3) (q.nf + i) y := by
    intro i hi y
    have : (q4.fac (q.nf + i)).p = (q3.fac (q.nf + i)).p := by rw [ha.same _ (hin i hi)]
    unfold D P
    dsimp only
    rw [this]
  refine ⟨{ q4 with fl := q4.fl ++ cells q.nf m }, m, R, pl, ?_, hn.mtwo, hridge, hn.inj, ?_, ?_, ?_, ?_, ?_, ?_, ?_, ?_, ?_, ?_,
    ?_, ?_, ?_, ?_, ?_, hc.mpl⟩
  · unfold inc
    rw [hx]
    simp only [e1]
    rw [← hq2, e2]
    simp only [hc.nf, e3]
  · have := hn.chain; rw [hc.p] at this; exact this
  · have := hn.close; rw [hc.p] at this; exact this
  · show q4.nf = _
    rw [ha.nf, hp.nf, hc.nf]
  · show q4.fl ++ _ = _
    rw [ha.fl, hp.fl, hc.fl]
  · show q4.vl = _
    rw [ha.vl, hp.vl, hc.vl]
  · intro g hg hv
    show q4.fac g = { q.fac g with c := (q4.fac g).c, merge := (q4.fac g).merge }
    rw [ha.other g (hout g hg), hp.old g (List.mem_toFinset.2 hg), hc.fac g hg hv]
  · intro g hg hv s hR
    show (q4.fac g).c s = (q.fac g).c s
    rw [ha.other g (hout g hg), hp.keep g (List.mem_toFinset.2 hg) s (by rw [hc.c]; exact hR), hc.fac g hg hv]
  · intro g hg hv s i hi hR
    show (q4.fac g).c s = _
    rw [ha.other g (hout g hg), hp.turn g (List.mem_toFinset.2 hg) s i hi (by rw [hc.c]; exact hR), hc.nf]
  · intro i hi
    show q4.fac (q.nf + i) = _
    have := ha.same _ (hin i hi)
    have hm : (q4.fac (q.nf + i)).merge = (q3.fac (q.nf + i)).merge := by rw [this]
    rw [hm]
    refine this.trans ?_
    conv_lhs => rw [hnew i hi]
  · intro v
    show q4.discard v = _
    rw [ha.disc, hp.disc v, hc.p, hc.disc v]
  · intro i hi y hy
    obtain ⟨k1, -, k3⟩ := ha.mem _ (hin i hi) y hy
    refine ⟨k1, ?_⟩
    rw [hDeq i hi]
    rcases htest i hi y k1 with ⟨e, -⟩ | ⟨-, e⟩ | ⟨-, e⟩
    · exact e
    · rw [e] at k3; exact absurd k3 (by decide)
    · rw [e] at k3; exact absurd k3 (by decide)
  · exact fun i hi => ha.nodup _ (hin i hi)
  · intro i hi j hj y hy hy'
    have := ha.disj _ (hin i hi) _ (hin j hj) y hy hy'
    omega
  · intro y hy
    rcases ha.all y hy with k | ⟨j, hj, k⟩ | ⟨j, hj, k⟩
    · right; right
      intro i hi
      rw [hDeq i hi]
      have k2 := (ha.left y k).2 _ (hin i hi)
      rcases htest i hi y hy with ⟨-, e⟩ | ⟨e, -⟩ | ⟨-, e⟩
      · rw [e] at k2; exact absurd k2 (by decide)
      · exact e
      · rw [e] at k2; exact absurd k2 (by decide)
    · left
      obtain ⟨i, hi, rfl⟩ := mem_cells.1 hj
      exact ⟨i, hi, k⟩
    · right; left
      obtain ⟨i, hi, rfl⟩ := mem_cells.1 hj
      refine ⟨i, hi, ?_⟩
      rcases htest i hi y hy with ⟨-, e⟩ | ⟨-, e⟩ | ⟨e, -⟩
      · rw [e] at k; exact absurd k (by decide)
      · rw [e] at k; exact absurd k (by decide)
      · exact e
  · intro g hg s g' hm hc'
    have hn4 : ∀ i, (q4.fac i).n = (q3.fac i).n ∧ (q4.fac i).merge = (q3.fac i).merge ∧ (q4.fac i).c = (q3.fac i).c := by
      intro i
      by_cases hi : i ∈ cells q.nf m
      · rw [ha.same i hi]; exact ⟨rfl, rfl, rfl⟩
      · rw [ha.other i hi]; exact ⟨rfl, rfl, rfl⟩
    show (q4.fac g).n = (q4.fac g').n
    rw [(hn4 g).1, (hn4 g').1]
    refine (hp.mrg g ?_ s g' ?_ ?_).2
    · have hg' : g ∈ q4.fl ++ cells q.nf m := hg
      rw [ha.fl, hp.fl, hc.fl, List.mem_append] at hg'
      rcases hg' with hg' | hg'
      · exact Or.inl (List.mem_toFinset.2 (List.mem_of_mem_filter hg'))
      · obtain ⟨k, hk, e⟩ := mem_cells.1 hg'
        exact Or.inr ⟨k, hk, by rw [hc.nf]; exact e⟩
    · rw [← (hn4 g).2.1]; exact hm
    · rw [← (hn4 g).2.2]; exact hc'

end
end Zeo.QHMesh

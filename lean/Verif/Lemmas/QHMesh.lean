import Verif.Lemmas.QHGeom
import Mathlib.Dynamics.PeriodicPts.Defs

/-! # Closed triangle complexes, the horizon of a point and the walk along it -/

namespace Zeo.QHMesh
noncomputable section
open Classical QHGeom

theorem f11 (s : Fin 3) : s + 1 + 1 = s + 2 := by revert s; decide
theorem f12 (s : Fin 3) : s + 1 + 2 = s := by revert s; decide
theorem f21 (s : Fin 3) : s + 2 + 1 = s := by revert s; decide
theorem f22 (s : Fin 3) : s + 2 + 2 = s + 1 := by revert s; decide
theorem fin3_cases (s t : Fin 3) : t = s ∨ t = s + 1 ∨ t = s + 2 := by revert s t; decide
theorem ne1 (s : Fin 3) : s ≠ s + 1 := by revert s; decide
theorem ne2 (s : Fin 3) : s ≠ s + 2 := by revert s; decide
theorem sh1 {s s' : Fin 3} (h : s' + 2 = s + 1) : s' = s + 2 := by revert s s'; decide
theorem sh2 {s s' : Fin 3} (h : s' + 1 = s + 2) : s' = s + 1 := by revert s s'; decide
theorem ne12 (s : Fin 3) : s + 1 ≠ s + 2 := by revert s; decide

/-- A closed complex of triangles with pointers across the edges. -/
structure Complex (F : Finset ℕ) (p : ℕ → Fin 3 → ℕ) (c : ℕ → Fin 3 → Option ℕ) : Prop where
  inj : ∀ f ∈ F, Function.Injective (p f)
  adj : ∀ f ∈ F, ∀ s, ∃ g ∈ F, ∃ t, c f s = some g ∧ c g t = some f ∧ p g (t + 1) = p f (s + 2) ∧
    p g (t + 2) = p f (s + 1) ∧ p g t ≠ p f s
  uni : ∀ f ∈ F, ∀ g ∈ F, ∀ s t, p f (s + 1) = p g (t + 1) → p f (s + 2) = p g (t + 2) → f = g ∧ s = t

section
variable {F : Finset ℕ} {p : ℕ → Fin 3 → ℕ} {c : ℕ → Fin 3 → Option ℕ}

/-- The half-edge on the other side. -/
def opp (c : ℕ → Fin 3 → Option ℕ) (r : ℕ × Fin 3) : ℕ × Fin 3 :=
  let g := (c r.1 r.2).getD 0
  (g, if c g 0 = some r.1 then 0 else if c g 1 = some r.1 then 1 else 2)

/-- Where a half-edge starts and ends. -/
def src (p : ℕ → Fin 3 → ℕ) (r : ℕ × Fin 3) : ℕ := p r.1 (r.2 + 1)
def tgt (p : ℕ → Fin 3 → ℕ) (r : ℕ × Fin 3) : ℕ := p r.1 (r.2 + 2)

theorem Complex.back (h : Complex F p c) {f g : ℕ} {s t t' : Fin 3} (hf : f ∈ F) (hg : g ∈ F)
    (h1 : p g (t + 1) = p f (s + 2)) (h2 : p g (t + 2) = p f (s + 1)) (h3 : p g t ≠ p f s)
    (ht' : c g t' = some f) : t' = t := by
  obtain ⟨f', hf', s', e1, -, e3, e4, -⟩ := h.adj g hg t'
  rw [ht'] at e1
  obtain rfl := Option.some.inj e1
  rcases fin3_cases t t' with rfl | rfl | rfl
  · rfl
  · exfalso
    rw [f11, h2] at e4
    have := h.inj f hf e4
    have hs : s' = s + 2 := sh1 this
    subst hs
    rw [f12, f21] at e3
    exact h3 e3.symm
  · exfalso
    rw [f22, h1] at e3
    have := h.inj f hf e3
    have hs : s' = s + 1 := sh2 this
    subst hs
    rw [f12, f21] at e4
    exact h3 e4.symm

/-- What `opp` gives in a closed complex. -/
theorem Complex.opp_spec (h : Complex F p c) {r : ℕ × Fin 3} (hr : r.1 ∈ F) :
    (opp c r).1 ∈ F ∧ c r.1 r.2 = some (opp c r).1 ∧ (∀ t, c (opp c r).1 t = some r.1 ↔ t = (opp c r).2) ∧
      src p (opp c r) = tgt p r ∧ tgt p (opp c r) = src p r ∧ p (opp c r).1 (opp c r).2 ≠ p r.1 r.2 := by
  obtain ⟨f, s⟩ := r
  obtain ⟨g, hg, t, e1, e2, e3, e4, e5⟩ := h.adj f hr s
  have hu : ∀ t', c g t' = some f ↔ t' = t :=
    fun t' => ⟨fun ht' => h.back hr hg e3 e4 e5 ht', fun ht' => ht' ▸ e2⟩
  have : opp c (f, s) = (g, t) := by
    simp only [opp, e1, Option.getD_some, hu]
    congr 1
    revert t; intro t _ _ _ _ _
    fin_cases t <;> simp
  rw [this]
  exact ⟨hg, e1, hu, e3, e4, e5⟩

theorem Complex.opp_opp (h : Complex F p c) {r : ℕ × Fin 3} (hr : r.1 ∈ F) : opp c (opp c r) = r := by
  obtain ⟨h1, h2, h3, -⟩ := h.opp_spec hr
  obtain ⟨g1, g2, g3, -⟩ := h.opp_spec (r := opp c r) h1
  have e : (opp c (opp c r)).1 = r.1 := by
    have := (h3 (opp c r).2).2 rfl
    rw [this] at g2
    exact (Option.some.inj g2).symm
  have e2 : r.2 = (opp c (opp c r)).2 := by
    apply (g3 r.2).1
    rw [e]; exact h2
  exact Prod.ext e e2.symm

/-- A step of the walk along the boundary of the visible part `V`. -/
def step (c : ℕ → Fin 3 → Option ℕ) (V : ℕ → Prop) (r : ℕ × Fin 3) : ℕ × Fin 3 :=
  if V (opp c r).1 then ((opp c r).1, (opp c r).2 + 1) else (r.1, r.2 + 1)

variable {V : ℕ → Prop}

theorem Complex.step_mem (h : Complex F p c) {r : ℕ × Fin 3} (hr : r.1 ∈ F) (hv : V r.1) :
    (step c V r).1 ∈ F ∧ V (step c V r).1 := by
  unfold step
  split
  · rename_i hg; exact ⟨(h.opp_spec hr).1, hg⟩
  · exact ⟨hr, hv⟩

theorem Complex.step_src (h : Complex F p c) {r : ℕ × Fin 3} (hr : r.1 ∈ F) :
    src p (step c V r) = if V (opp c r).1 then src p r else tgt p r := by
  unfold step
  split
  · have := (h.opp_spec hr).2.2.2.2.1
    simp only [src, tgt] at this ⊢
    rw [f11]; exact this
  · simp only [src, tgt, f11]

theorem Complex.step_inj (h : Complex F p c) {r r' : ℕ × Fin 3} (hr : r.1 ∈ F) (hv : V r.1) (hr' : r'.1 ∈ F)
    (hv' : V r'.1) (e : step c V r = step c V r') : r = r' := by
  have add1 : ∀ a b : ℕ × Fin 3, (a.1, a.2 + 1) = (b.1, b.2 + 1) → a = b := by
    rintro ⟨a, s⟩ ⟨b, t⟩ h
    simp only [Prod.mk.injEq, add_left_inj] at h
    rw [h.1, h.2]
  unfold step at e
  split at e <;> split at e
  · have := add1 _ _ e
    rw [← h.opp_opp hr, this, h.opp_opp hr']
  · rename_i h1 h2
    have := add1 _ _ e
    exact absurd (by rw [← this, h.opp_opp hr]; exact hv) h2
  · rename_i h1 h2
    have := add1 _ _ e
    exact absurd (by rw [this, h.opp_opp hr']; exact hv') h1
  · exact add1 _ _ e

theorem Complex.iter_mem (h : Complex F p c) {r : ℕ × Fin 3} (hr : r.1 ∈ F) (hv : V r.1) (k : ℕ) :
    ((step c V)^[k] r).1 ∈ F ∧ V ((step c V)^[k] r).1 := by
  induction k with
  | zero => exact ⟨hr, hv⟩
  | succ k ih => rw [Function.iterate_succ_apply']; exact h.step_mem ih.1 ih.2

theorem Complex.iter_cancel (h : Complex F p c) {r : ℕ × Fin 3} (hr : r.1 ∈ F) (hv : V r.1) (i d : ℕ)
    (e : (step c V)^[i] r = (step c V)^[i + d] r) : (step c V)^[d] r = r := by
  induction i with
  | zero => simpa using e.symm
  | succ i ih =>
    apply ih
    have e' : step c V ((step c V)^[i] r) = step c V ((step c V)^[i + d] r) := by
      rw [← Function.iterate_succ_apply' (step c V), ← Function.iterate_succ_apply' (step c V)]
      refine e.trans ?_
      congr 2; omega
    exact h.step_inj (h.iter_mem hr hv _).1 (h.iter_mem hr hv _).2 (h.iter_mem hr hv _).1 (h.iter_mem hr hv _).2 e'

/-- The walk comes back to where it started. -/
theorem Complex.periodic (h : Complex F p c) {r : ℕ × Fin 3} (hr : r.1 ∈ F) (hv : V r.1) :
    0 < Function.minimalPeriod (step c V) r ∧
      Function.minimalPeriod (step c V) r ≤ (F.filter V).card * 3 := by
  set H := (F.filter V) ×ˢ (Finset.univ : Finset (Fin 3)) with hH
  have hcard : H.card = (F.filter V).card * 3 := by rw [hH, Finset.card_product]; simp
  obtain ⟨i, hi, j, hj, hij, e⟩ := Finset.exists_ne_map_eq_of_card_lt_of_maps_to
    (s := Finset.range (H.card + 1)) (t := H) (by simp) (f := fun k => (step c V)^[k] r) (by
      intro k _
      have := h.iter_mem hr hv k
      simp only [hH, Finset.coe_product, Set.mem_prod, Finset.mem_coe, Finset.mem_filter]
      exact ⟨this, Finset.mem_univ _⟩)
  simp only [Finset.mem_range] at hi hj
  have key : ∃ d, 0 < d ∧ d ≤ H.card ∧ Function.IsPeriodicPt (step c V) d r := by
    rcases lt_or_gt_of_ne hij with hlt | hlt
    · refine ⟨j - i, by omega, by omega, h.iter_cancel hr hv i (j - i) ?_⟩
      refine e.trans ?_
      congr 2; omega
    · refine ⟨i - j, by omega, by omega, h.iter_cancel hr hv j (i - j) ?_⟩
      refine e.symm.trans ?_
      congr 2; omega
  obtain ⟨d, hd, hdc, hper⟩ := key
  exact ⟨hper.minimalPeriod_pos hd, (hper.minimalPeriod_le hd).trans (hdc.trans hcard.le)⟩

/-- A half-edge of a visible triangle whose other side is not visible. -/
def Ridge (F : Finset ℕ) (c : ℕ → Fin 3 → Option ℕ) (V : ℕ → Prop) (r : ℕ × Fin 3) : Prop :=
  r.1 ∈ F ∧ V r.1 ∧ ¬ V (opp c r).1

end

/-! ## Geometry of the horizon -/

section
variable {F : Finset ℕ} {p : ℕ → Fin 3 → ℕ} {c : ℕ → Fin 3 → Option ℕ}

/-- Volume over a triangle of the complex. -/
def D (pos : ℕ → Vec3 ℝ) (p : ℕ → Fin 3 → ℕ) (f x : ℕ) : ℝ := vol (pos (p f 0)) (pos (p f 1)) (pos (p f 2)) (pos x)

/-- Volume from a triangle of the complex to any place. -/
def H (pos : ℕ → Vec3 ℝ) (p : ℕ → Fin 3 → ℕ) (f : ℕ) (X : Vec3 ℝ) : ℝ := vol (pos (p f 0)) (pos (p f 1)) (pos (p f 2)) X

theorem H_rot (pos : ℕ → Vec3 ℝ) (p : ℕ → Fin 3 → ℕ) (f : ℕ) (X : Vec3 ℝ) (s : Fin 3) :
    vol (pos (p f s)) (pos (p f (s + 1))) (pos (p f (s + 2))) X = H pos p f X := by
  unfold H
  fin_cases s
  · rfl
  · exact vol_cyc _ _ _ _
  · exact (vol_cyc (pos (p f 2)) _ _ _).symm

theorem D_rot (pos : ℕ → Vec3 ℝ) (p : ℕ → Fin 3 → ℕ) (f x : ℕ) (s : Fin 3) :
    vol (pos (p f s)) (pos (p f (s + 1))) (pos (p f (s + 2))) (pos x) = D pos p f x := by
  unfold D
  fin_cases s
  · rfl
  · exact vol_cyc _ _ _ _
  · exact (vol_cyc (pos (p f 2)) _ _ _).symm

/-- The triangle on a ridge when the corners are on or beneath all the triangles and `K` strictly beneath. -/
theorem Complex.cone_real (h : Complex F p c) {pos : ℕ → Vec3 ℝ} {V : ℕ → Prop} {o : ℕ} {K : Vec3 ℝ}
    (real : ∀ f ∈ F, V f ↔ 0 ≤ D pos p f o) (weak : ∀ f ∈ F, ∀ g ∈ F, ∀ s, D pos p f (p g s) ≤ 0)
    (inner : ∀ f ∈ F, H pos p f K < 0) {r : ℕ × Fin 3} (hr : Ridge F c V r) :
    vol (pos o) (pos (src p r)) (pos (tgt p r)) K < 0 ∧
      ∀ X, (∀ f ∈ F, H pos p f X ≤ 0) → vol (pos o) (pos (src p r)) (pos (tgt p r)) X ≤ 0 := by
  obtain ⟨og, oc, ob, os, ot, on⟩ := h.opp_spec hr.1
  set g := (opp c r).1
  set t := (opp c r).2
  have hz : ∀ X, vol (pos (p r.1 r.2)) (pos (src p r)) (pos (tgt p r)) X = H pos p r.1 X :=
    fun X => H_rot pos p r.1 X r.2
  have hy : ∀ X, vol (pos (p g t)) (pos (tgt p r)) (pos (src p r)) X = H pos p g X := by
    intro X
    rw [← os, ← ot]
    exact H_rot pos p _ X _
  have h1 : 0 ≤ H pos p r.1 (pos o) := (real _ hr.1).1 hr.2.1
  have h2 : H pos p g (pos o) < 0 := by
    have := hr.2.2
    rw [real _ og] at this
    exact not_le.1 this
  have hin := vol_cone_inner (z := pos (p r.1 r.2)) (y := pos (p g t)) (a := pos (src p r)) (b := pos (tgt p r))
    (p := pos o) (k := K) (by rw [hz]; exact weak _ hr.1 _ og t) (by rw [hz]; exact h1) (by rw [hy]; exact h2)
    (by rw [hz]; exact inner _ hr.1) (by rw [hy]; exact inner _ og)
  refine ⟨hin.2, fun X hX => vol_cone_weak (z := pos (p r.1 r.2)) (y := pos (p g t)) hin.1 ?_ ?_ ?_ ?_⟩
  · rw [hz]; exact h1
  · rw [hy]; exact h2
  · rw [hz]; exact hX _ hr.1
  · rw [hy]; exact hX _ og

/-- The situation when a new point `o` is added: the points `T` are beneath the triangles they are no corners of;
`o` is on neither side's plane. -/
structure Setting (pos : ℕ → Vec3 ℝ) (F : Finset ℕ) (p : ℕ → Fin 3 → ℕ) (c : ℕ → Fin 3 → Option ℕ) (T : ℕ → Prop)
    (o : ℕ) : Prop where
  cx : Complex F p c
  corner : ∀ f ∈ F, ∀ s, T (p f s)
  conv : ∀ f ∈ F, ∀ x, T x → (∀ s, p f s ≠ x) → D pos p f x < 0
  off : ∀ f ∈ F, D pos p f o ≠ 0
  new : ¬ T o

variable {pos : ℕ → Vec3 ℝ} {T : ℕ → Prop} {o : ℕ}

/-- Visible from `o`. -/
def Vis (pos : ℕ → Vec3 ℝ) (p : ℕ → Fin 3 → ℕ) (o f : ℕ) : Prop := 0 < D pos p f o

theorem Setting.le (h : Setting pos F p c T o) {f : ℕ} (hf : f ∈ F) {x : ℕ} (hx : T x) : D pos p f x ≤ 0 := by
  by_cases hc : ∀ s, p f s ≠ x
  · exact (h.conv f hf x hx hc).le
  · push Not at hc
    obtain ⟨s, rfl⟩ := hc
    rw [← D_rot pos p f _ s]
    exact (vol_self1 _ _ _).le

theorem Setting.invis (h : Setting pos F p c T o) {f : ℕ} (hf : f ∈ F) (hv : ¬ Vis pos p o f) : D pos p f o < 0 :=
  lt_of_le_of_ne (not_lt.1 hv) (h.off f hf)

/-- Every old point other than its ends is beneath the triangle on a ridge. -/
theorem Setting.cone (h : Setting pos F p c T o) {r : ℕ × Fin 3} (hr : Ridge F c (Vis pos p o) r) {x : ℕ} (hx : T x)
    (h1 : x ≠ src p r) (h2 : x ≠ tgt p r) : vol (pos o) (pos (src p r)) (pos (tgt p r)) (pos x) < 0 := by
  obtain ⟨f, s⟩ := r
  obtain ⟨hf, hv, hg⟩ := hr
  obtain ⟨hgF, -, -, e1, e2, e3⟩ := h.cx.opp_spec (r := (f, s)) hf
  set g := (opp c (f, s)).1
  set t := (opp c (f, s)).2
  have ey : ∀ y, vol (pos (p g t)) (pos (tgt p (f, s))) (pos (src p (f, s))) (pos y) = D pos p g y := by
    intro y
    rw [← e1, ← e2]
    exact D_rot pos p g y t
  have ez : ∀ y, vol (pos (p f s)) (pos (src p (f, s))) (pos (tgt p (f, s))) (pos y) = D pos p f y :=
    fun y => D_rot pos p f y s
  refine vol_cone (z := pos (p f s)) (y := pos (p g t)) ?_ ?_ ?_ ?_ ?_ ?_
  · rw [ez]
    refine h.conv f hf _ (h.corner g hgF t) fun s' hs' => ?_
    have hi := h.cx.inj g hgF
    rcases fin3_cases s s' with rfl | rfl | rfl
    · exact e3 hs'.symm
    · have : p g (t + 2) = p g t := e2.trans hs'
      exact ne2 t (hi this).symm
    · have : p g (t + 1) = p g t := e1.trans hs'
      exact ne1 t (hi this).symm
  · rw [ez]; exact hv
  · rw [ey]; exact h.invis hgF hg
  · rw [ez]; exact h.le hf hx
  · rw [ey]; exact h.le hgF hx
  · rw [ez, ey]
    by_cases hc : p f s = x
    · right
      refine h.conv g hgF x hx fun t' ht' => ?_
      rcases fin3_cases t t' with rfl | rfl | rfl
      · exact e3 (ht'.trans hc.symm)
      · exact h2 (ht'.symm.trans e1)
      · exact h1 (ht'.symm.trans e2)
    · left
      refine h.conv f hf x hx fun s' hs' => ?_
      rcases fin3_cases s s' with rfl | rfl | rfl
      · exact hc hs'
      · exact h1 hs'.symm
      · exact h2 hs'.symm

theorem Setting.ridge_T (h : Setting pos F p c T o) {r : ℕ × Fin 3} (hr : Ridge F c (Vis pos p o) r) :
    T (src p r) ∧ T (tgt p r) := ⟨h.corner _ hr.1 _, h.corner _ hr.1 _⟩

theorem Setting.ridge_ne (h : Setting pos F p c T o) {r : ℕ × Fin 3} (hr : Ridge F c (Vis pos p o) r) :
    src p r ≠ tgt p r := fun e => ne12 r.2 (h.cx.inj _ hr.1 e)

theorem Setting.src_inj (h : Setting pos F p c T o) {r r' : ℕ × Fin 3} (hr : Ridge F c (Vis pos p o) r)
    (hr' : Ridge F c (Vis pos p o) r') (e : src p r = src p r') : r = r' := by
  by_cases e2 : tgt p r = tgt p r'
  · have := h.cx.uni _ hr.1 _ hr'.1 _ _ e e2
    exact Prod.ext this.1 this.2
  · exfalso
    have h1 := h.cone hr (h.ridge_T hr').2 (by rw [e]; exact (h.ridge_ne hr').symm) (Ne.symm e2)
    have h2 := h.cone hr' (h.ridge_T hr).2 (by rw [← e]; exact (h.ridge_ne hr).symm) e2
    rw [e, vol_swap34] at h1
    linarith

theorem Setting.tgt_inj (h : Setting pos F p c T o) {r r' : ℕ × Fin 3} (hr : Ridge F c (Vis pos p o) r)
    (hr' : Ridge F c (Vis pos p o) r') (e : tgt p r = tgt p r') : r = r' := by
  by_cases e2 : src p r = src p r'
  · exact h.src_inj hr hr' e2
  · exfalso
    have h1 := h.cone hr (h.ridge_T hr').1 (Ne.symm e2) (by rw [e]; exact h.ridge_ne hr')
    have h2 := h.cone hr' (h.ridge_T hr).1 e2 (by rw [← e]; exact h.ridge_ne hr)
    have : vol (pos o) (pos (src p r)) (pos (tgt p r)) (pos (src p r')) =
        - vol (pos o) (pos (src p r')) (pos (tgt p r')) (pos (src p r)) := by
      rw [e]; simp only [vol_eq]; ring
    rw [this] at h1
    linarith

/-- Two successive ridges do not run back and forth. -/
theorem Setting.no_return (h : Setting pos F p c T o) {r r' : ℕ × Fin 3} (hr : Ridge F c (Vis pos p o) r)
    (hr' : Ridge F c (Vis pos p o) r') (e : tgt p r = src p r') : tgt p r' ≠ src p r := by
  intro e2
  have hi := h.cx.inj _ hr.1
  have hT := h.corner _ hr.1 r.2
  have a1 : p r.1 r.2 ≠ src p r := fun he => ne1 r.2 (hi he)
  have a2 : p r.1 r.2 ≠ tgt p r := fun he => ne2 r.2 (hi he)
  have h1 := h.cone hr hT a1 a2
  have h2 := h.cone hr' hT (by rw [← e]; exact a2) (by rw [e2]; exact a1)
  rw [← e, e2] at h2
  have : vol (pos o) (pos (tgt p r)) (pos (src p r)) (pos (p r.1 r.2)) =
      - vol (pos o) (pos (src p r)) (pos (tgt p r)) (pos (p r.1 r.2)) := by simp only [vol_eq]; ring
  linarith

/-- A closed chain of ridges contains every ridge. -/
theorem Setting.complete (h : Setting pos F p c T o) (R : ℕ → ℕ × Fin 3) (m : ℕ) (hm : 0 < m)
    (hR : ∀ k < m, Ridge F c (Vis pos p o) (R k)) (hchain : ∀ k, k + 1 < m → tgt p (R k) = src p (R (k + 1)))
    (hclose : tgt p (R (m - 1)) = src p (R 0)) {r : ℕ × Fin 3} (hr : Ridge F c (Vis pos p o) r) :
    ∃ k < m, R k = r := by
  by_contra hcon
  push Not at hcon
  have a1 : ∀ k < m, src p r ≠ src p (R k) := fun k hk e => hcon k hk (h.src_inj (hR k hk) hr e.symm)
  have a2 : ∀ k < m, tgt p r ≠ tgt p (R k) := fun k hk e => hcon k hk (h.tgt_inj (hR k hk) hr e.symm)
  have nxt : ∀ k < m, ∃ j < m, tgt p (R k) = src p (R j) := by
    intro k hk
    by_cases hk' : k + 1 < m
    · exact ⟨k + 1, hk', hchain k hk'⟩
    · obtain rfl : k = m - 1 := by omega
      exact ⟨0, hm, hclose⟩
  have prv : ∀ k < m, ∃ j < m, src p (R k) = tgt p (R j) := by
    intro k hk
    rcases Nat.eq_zero_or_pos k with rfl | h0
    · exact ⟨m - 1, by omega, hclose.symm⟩
    · exact ⟨k - 1, by omega, by rw [hchain (k - 1) (by omega)]; congr 2; omega⟩
  set a : ℕ → Vec3 ℝ := fun k => if k = m then pos (src p (R 0)) else pos (src p (R k)) with ha
  refine no_cycle (v := pos o) (p := pos (src p r)) (w := Spec.triNormal (pos o, pos (src p r), pos (tgt p r)))
    (vol_self2 _ _ _) a m hm (by simp [ha]) ?_ ?_
  · intro k hk
    have key : ∀ j < m, vol (pos o) (pos (src p r)) (pos (tgt p r)) (pos (src p (R j))) < 0 := by
      intro j hj
      obtain ⟨i, hi, e⟩ := prv j hj
      exact h.cone hr (h.ridge_T (hR j hj)).1 (a1 j hj).symm (by rw [e]; exact (a2 i hi).symm)
    by_cases hkm : k = m
    · simp only [ha, hkm, if_true]; exact key 0 hm
    · simp only [ha, hkm, if_false]; exact key k (by omega)
  · intro k hk
    have hk1 : a k = pos (src p (R k)) := by simp only [ha, if_neg hk.ne]
    have hk2 : a (k + 1) = pos (tgt p (R k)) := by
      simp only [ha]
      by_cases hkm : k + 1 = m
      · rw [if_pos hkm, ← hclose]
        congr 3; omega
      · rw [if_neg hkm, hchain k (by omega)]
    rw [hk1, hk2]
    obtain ⟨j, hj, e⟩ := nxt k hk
    have := h.cone (hR k hk) (h.ridge_T hr).1 (a1 k hk) (by rw [e]; exact a1 j hj)
    have e2 : vol (pos o) (pos (src p r)) (pos (src p (R k))) (pos (tgt p (R k))) =
        vol (pos o) (pos (src p (R k))) (pos (tgt p (R k))) (pos (src p r)) := by simp only [vol_eq]; ring
    rw [e2]; exact this

/-- If a triangle is visible then some visible triangle has an invisible neighbour. -/
theorem Setting.exists_ridge (h : Setting pos F p c T o) {f : ℕ} (hf : f ∈ F) (hv : Vis pos p o f) :
    ∃ r, Ridge F c (Vis pos p o) r := by
  by_contra hcon
  push Not at hcon
  have hall : ∀ r : ℕ × Fin 3, r.1 ∈ F → Vis pos p o r.1 → Vis pos p o (opp c r).1 := by
    intro r h1 h2
    by_contra h3
    exact hcon r ⟨h1, h2, h3⟩
  have := closed_hull (F := F.filter (Vis pos p o)) (p := p) (q := pos o) (ε := 1) pos
    ⟨f, Finset.mem_filter.2 ⟨hf, hv⟩⟩
    (by
      intro f hf s
      rw [Finset.mem_filter] at hf
      obtain ⟨g1, -, -, g4, g5, -⟩ := h.cx.opp_spec (r := (f, s)) hf.1
      exact ⟨_, Finset.mem_filter.2 ⟨g1, hall (f, s) hf.1 hf.2⟩, _, g4, g5⟩)
    (by
      intro f hf g hg
      exact h.cx.uni f (Finset.mem_filter.1 hf).1 g (Finset.mem_filter.1 hg).1)
    (by
      intro f hf
      rw [one_mul]; exact (Finset.mem_filter.1 hf).2)
  have hle := vol_hull_le (a := pos (p f 0)) (b := pos (p f 1)) (c := pos (p f 2)) (by
    rintro v ⟨g, hg, s, rfl⟩
    exact h.le hf (h.corner g (Finset.mem_filter.1 hg).1 s)) this
  exact absurd hv (not_lt.2 hle)

/-- A corner of both a visible and an invisible triangle lies on the horizon. -/
theorem Setting.on_horizon (h : Setting pos F p c T o) {f g : ℕ} (hf : f ∈ F) (hv : Vis pos p o f) (hg : g ∈ F)
    (hgv : ¬ Vis pos p o g) {s t : Fin 3} (e : p f s = p g t) :
    ∃ r, Ridge F c (Vis pos p o) r ∧ src p r = p g t := by
  by_contra hcon
  push Not at hcon
  set r0 : ℕ × Fin 3 := (f, s + 2) with hr0
  have hs0 : src p r0 = p g t := by simp only [src, hr0, f21]; exact e
  have it := fun k => h.cx.iter_mem (V := Vis pos p o) (r := r0) hf hv k
  set R : ℕ → ℕ × Fin 3 := fun k => (step c (Vis pos p o))^[k] r0 with hR
  have hRs : ∀ k, R (k + 1) = step c (Vis pos p o) (R k) := fun k => Function.iterate_succ_apply' _ _ _
  have hsrc : ∀ k, src p (R k) = p g t ∧ Vis pos p o (opp c (R k)).1 := by
    intro k
    induction k with
    | zero =>
      refine ⟨hs0, ?_⟩
      by_contra hc
      exact hcon r0 ⟨hf, hv, hc⟩ hs0
    | succ k ih =>
      have e1 : src p (R (k + 1)) = p g t := by
        rw [hRs, h.cx.step_src (it k).1, if_pos ih.2]; exact ih.1
      refine ⟨e1, ?_⟩
      by_contra hc
      exact hcon _ ⟨(it (k + 1)).1, (it (k + 1)).2, hc⟩ e1
  -- no other corner of the fan belongs to the invisible triangle
  have hfan : ∀ k t', p g t' ≠ tgt p (R k) := by
    intro k t' ht'
    have hne : src p (R k) ≠ tgt p (R k) := fun he => ne12 (R k).2 (h.cx.inj _ (it k).1 he)
    have htt : t' ≠ t := by
      rintro rfl
      exact hne ((hsrc k).1.trans ht')
    rcases fin3_cases t t' with rfl | rfl | rfl
    · exact htt rfl
    · -- the edge from the corner to the fan corner
      have := h.cx.uni g hg (R k).1 (it k).1 (t + 2) (R k).2 (by rw [f21]; exact (hsrc k).1.symm)
        (by rw [f22]; exact ht')
      exact hgv (this.1 ▸ (it k).2)
    · obtain ⟨o1, -, -, o4, o5, -⟩ := h.cx.opp_spec (r := R k) (it k).1
      have := h.cx.uni g hg _ o1 (t + 1) (opp c (R k)).2 (by rw [f11]; exact ht'.trans o4.symm)
        (by rw [f12]; exact (hsrc k).1.symm.trans o5.symm)
      exact hgv (this.1 ▸ (hsrc k).2)
  have hper := (h.cx.periodic (V := Vis pos p o) (r := r0) hf hv).1
  set m := Function.minimalPeriod (step c (Vis pos p o)) r0 with hm
  have hRm : R m = R 0 := Function.iterate_minimalPeriod
  set v := pos (p g t) with hvdef
  have ef : ∀ y, vol v (pos (p f (s + 1))) (pos (p f (s + 2))) y = vol (pos (p f s)) (pos (p f (s + 1))) (pos (p f (s + 2))) y := by
    intro y; rw [hvdef, ← e]
  set A := vol v (pos (p f (s + 1))) (pos (p f (s + 2))) (pos o) with hA
  set B := vol v (pos (p g (t + 1))) (pos (p g (t + 2))) (pos o) with hB
  have hApos : 0 < A := by rw [hA, ef, D_rot]; exact hv
  have hBneg : B < 0 := by rw [hB, D_rot]; exact h.invis hg hgv
  set nf := Spec.triNormal (v, pos (p f (s + 1)), pos (p f (s + 2))) with hnf
  set ng := Spec.triNormal (v, pos (p g (t + 1)), pos (p g (t + 2))) with hng
  set w : Vec3 ℝ := ⟨A * ng.x - B * nf.x, A * ng.y - B * nf.y, A * ng.z - B * nf.z⟩ with hw
  have hdot : ∀ y : Vec3 ℝ, Spec.dot w (y.sub v) = A * vol v (pos (p g (t + 1))) (pos (p g (t + 2))) y -
      B * vol v (pos (p f (s + 1))) (pos (p f (s + 2))) y := by
    intro y
    simp only [vol, ← hnf, ← hng, Spec.dot, hw]
    ring
  refine no_cycle (v := v) (p := pos o) (w := w) (by rw [hdot, ← hA, ← hB]; ring) (fun k => pos (tgt p (R k))) m hper
    (by simp only [hRm]) ?_ ?_
  · intro k _
    rw [hdot, ef, D_rot, D_rot]
    have h1 := h.conv g hg _ (h.corner _ (it k).1 ((R k).2 + 2)) (hfan k)
    have h2 := h.le hf (h.corner _ (it k).1 ((R k).2 + 2))
    have h1' : D pos p g (tgt p (R k)) < 0 := h1
    have h2' : D pos p f (tgt p (R k)) ≤ 0 := h2
    nlinarith [mul_pos hApos (neg_pos.2 h1'), mul_nonneg_of_nonpos_of_nonpos hBneg.le h2']
  · intro k _
    have e1 : R (k + 1) = ((opp c (R k)).1, (opp c (R k)).2 + 1) := by
      rw [hRs]; unfold step; rw [if_pos (hsrc k).2]
    obtain ⟨o1, -, -, o4, o5, -⟩ := h.cx.opp_spec (r := R k) (it k).1
    have hD : 0 < D pos p (opp c (R k)).1 o := (hsrc k).2
    rw [← D_rot pos p _ o ((opp c (R k)).2 + 2), f21, f22] at hD
    have t1 : tgt p (R (k + 1)) = p (opp c (R k)).1 (opp c (R k)).2 := by
      simp only [e1, tgt, f12]
    have t2 : p (opp c (R k)).1 ((opp c (R k)).2 + 1) = tgt p (R k) := o4
    have t3 : p (opp c (R k)).1 ((opp c (R k)).2 + 2) = p g t := o5.trans (hsrc k).1
    rw [← t1, t2, t3] at hD
    have : vol v (pos o) (pos (tgt p (R k))) (pos (tgt p (R (k + 1)))) =
        - vol (pos (p g t)) (pos (tgt p (R (k + 1)))) (pos (tgt p (R k))) (pos o) := by
      simp only [vol_eq, hvdef]; ring
    rw [this]; linarith

end
end
end Zeo.QHMesh

import Verif.Model.Depth
import Verif.Spec.Hull
import Verif.Spec.BRep

/-! # Linear scale factors and sums over slots -/

namespace Zeo.Depth
open Spec GJK

private theorem isTol_zero {v : Vec3 ℝ} : v.isTol 0 ↔ v = .zero := by
  unfold Vec3.isTol zIsTol
  simp only [abs_nonpos_iff]
  exact ⟨fun h => Vec3.ext h.1 h.2.1 h.2.2, fun h => by rw [h]; exact ⟨rfl, rfl, rfl⟩⟩

/-- The core of the computation, for the corner `a` and the edges to `b`, `c`. -/
private theorem raw_core {a b c p : Vec3 ℝ} {y z : ℝ} (hn : Tri3.outerProd a b c ≠ .zero)
    (h1 : (p.sub a).inner (b.sub a) = y * (b.sub a).inner (b.sub a) + z * (b.sub a).inner (c.sub a))
    (h2 : (p.sub a).inner (c.sub a) = y * (b.sub a).inner (c.sub a) + z * (c.sub a).inner (c.sub a)) :
    ¬ ((b.sub a).isTol 0 ∨ (c.sub a).isTol 0) ∧
    ∃ l, ((Mat2.create 1 ((b.sub a).normalizeNC.2.inner (c.sub a).normalizeNC.2) ((b.sub a).normalizeNC.2.inner (c.sub a).normalizeNC.2)
        1).mulInvVec 0 ⟨(b.sub a).normalizeNC.2.inner (p.sub a), (c.sub a).normalizeNC.2.inner (p.sub a)⟩) = some l ∧
      l.x / (b.sub a).normalizeNC.1 = y ∧ l.y / (c.sub a).normalizeNC.1 = z := by
  set u := b.sub a with hu
  set w := c.sub a with hw
  set q := p.sub a with hq
  have hcr : ¬ (u.y * w.z - u.z * w.y = 0 ∧ u.z * w.x - u.x * w.z = 0 ∧ u.x * w.y - u.y * w.x = 0) := by
    rintro ⟨e1, e2, e3⟩
    refine hn ?_
    simp only [hu, hw, Vec3.sub] at e1 e2 e3
    ext <;> simp only [Tri3.outerProd, Vec3.outer, Vec3.sub, Vec3.zero] <;> linarith
  have hu0 : u ≠ .zero := by rintro h; rw [h] at hcr; simp [Vec3.zero] at hcr
  have hw0 : w ≠ .zero := by rintro h; rw [h] at hcr; simp [Vec3.zero] at hcr
  refine ⟨by rw [isTol_zero, isTol_zero]; tauto, ?_⟩
  have pos : ∀ v : Vec3 ℝ, v ≠ .zero → 0 < v.inner v := by
    intro v hv
    by_contra hc
    have h0 := not_lt.1 hc
    unfold Vec3.inner at h0
    exact hv (Vec3.ext (by show v.x = 0; nlinarith [mul_self_nonneg v.x, mul_self_nonneg v.y, mul_self_nonneg v.z])
      (by show v.y = 0; nlinarith [mul_self_nonneg v.x, mul_self_nonneg v.y, mul_self_nonneg v.z])
      (by show v.z = 0; nlinarith [mul_self_nonneg v.x, mul_self_nonneg v.y, mul_self_nonneg v.z]))
  have nrm : ∀ v : Vec3 ℝ, v ≠ .zero → 0 < v.norm ∧ v.norm ^ 2 = v.inner v := by
    intro v hv
    have : v.norm = Real.sqrt (v.inner v) := rfl
    rw [this]
    exact ⟨Real.sqrt_pos.2 (pos v hv), Real.sq_sqrt (pos v hv).le⟩
  obtain ⟨nu, nu2⟩ := nrm u hu0
  obtain ⟨nw, nw2⟩ := nrm w hw0
  have mulI : ∀ (v x : Vec3 ℝ) (k : ℝ), (v.mul k).inner x = k * v.inner x := fun v x k => by
    simp only [Vec3.inner, Vec3.mul]; ring
  have mulI' : ∀ (v x : Vec3 ℝ) (k : ℝ), v.inner (x.mul k) = k * v.inner x := fun v x k => by
    simp only [Vec3.inner, Vec3.mul]; ring
  have com : ∀ v x : Vec3 ℝ, v.inner x = x.inner v := fun v x => by simp only [Vec3.inner]; ring
  simp only [Vec3.normalizeNC, mulI, mulI']
  set m := 1 / u.norm * (1 / w.norm * u.inner w) with hm
  have hm' : 1 / w.norm * (1 / u.norm * u.inner w) = m := by rw [hm]; ring
  have gram : 0 < u.inner u * w.inner w - u.inner w ^ 2 := by
    have e : u.inner u * w.inner w - u.inner w ^ 2 = (u.y * w.z - u.z * w.y) ^ 2 + (u.z * w.x - u.x * w.z) ^ 2 + (u.x * w.y - u.y * w.x) ^ 2 := by
      simp only [Vec3.inner]; ring
    rw [e]
    by_contra hc
    push Not at hc
    refine hcr ⟨?_, ?_, ?_⟩ <;> nlinarith [sq_nonneg (u.y * w.z - u.z * w.y), sq_nonneg (u.z * w.x - u.x * w.z), sq_nonneg (u.x * w.y - u.y * w.x)]
  have hmu : m * (u.norm * w.norm) = u.inner w := by rw [hm]; field_simp
  have hdet : 1 - m * m ≠ 0 := by
    intro h
    rw [← nu2, ← nw2, ← hmu] at gram
    nlinarith
  have hd : (Mat2.create 1 m m 1 : Mat2 ℝ).det = 1 - m * m := by simp only [Mat2.det, Mat2.create]; ring
  have hx : 1 / u.norm * u.inner q = y * u.norm + z * w.norm * m := by
    rw [com u q, h1, ← nu2, ← hmu]; field_simp
  have hy : 1 / w.norm * w.inner q = y * u.norm * m + z * w.norm := by
    rw [com w q, h2, ← nw2, ← hmu]; field_simp
  refine ⟨⟨y * u.norm, z * w.norm⟩, ?_, ?_, ?_⟩
  · unfold Mat2.mulInvVec
    rw [if_neg (by rw [hd]; unfold zIsTol; rw [abs_nonpos_iff]; exact hdet), hd, hx, hy]
    congr 1
    simp only [Mat2.mulAdjVec, Mat2.create, Vec2.mul]
    have k : (1 - m * m) * (1 - m * m)⁻¹ = 1 := mul_inv_cancel₀ hdet
    ext <;> dsimp only <;> simp only [div_eq_mul_inv, one_mul]
    · linear_combination (y * u.norm) * k
    · linear_combination (z * w.norm) * k
  · field_simp
  · field_simp

/-- A point whose foot in the plane of the triangle has the weights `l` gets these weights. -/
theorem linScale_foot {t : Tri3 ℝ} {p : Vec3 ℝ} (hn : Tri3.outerProd t.v0 t.v1 t.v2 ≠ .zero) {x y z : ℝ} (hx : 0 ≤ x) (hy : 0 ≤ y)
    (hz : 0 ≤ z) (hs : x + y + z = 1)
    (h1 : (p.sub (comb x y z 0 t.v0 t.v1 t.v2 t.v0)).inner (t.v1.sub t.v0) = 0)
    (h2 : (p.sub (comb x y z 0 t.v0 t.v1 t.v2 t.v0)).inner (t.v2.sub t.v0) = 0) :
    t.linScale 0 p = some (0, ![x, y, z], p) := by
  have hx' : x = 1 - y - z := by linarith
  subst hx'
  have key : t.linScaleRaw 0 p = some ![1 - y - z, y, z] := by
    have hcase : t.nearVert p = 0 ∨ t.nearVert p = 1 ∨ t.nearVert p = 2 := by
      generalize t.nearVert p = i; fin_cases i <;> simp
    have g0 : t.vertex 0 = t.v0 := rfl
    have g1 : t.vertex 1 = t.v1 := rfl
    have g2 : t.vertex 2 = t.v2 := rfl
    simp only [Vec3.inner, Vec3.sub, comb] at h1 h2
    rcases hcase with e | e | e
    · obtain ⟨k1, l, k2, k3, k4⟩ := raw_core (a := t.v0) (b := t.v1) (c := t.v2) (p := p) (y := y) (z := z) hn
        (by simp only [Vec3.inner, Vec3.sub]; linear_combination h1) (by simp only [Vec3.inner, Vec3.sub]; linear_combination h2)
      unfold Tri3.linScaleRaw
      simp only [e, zero_add, g0, g1, g2, if_neg k1, k2, Option.map_some, k3, k4]
      congr 1
      funext i
      fin_cases i <;> simp <;> ring
    · obtain ⟨k1, l, k2, k3, k4⟩ := raw_core (a := t.v1) (b := t.v2) (c := t.v0) (p := p) (y := z) (z := 1 - y - z) (by
          intro h; refine hn ?_
          have q1 := congrArg Vec3.x h
          have q2 := congrArg Vec3.y h
          have q3 := congrArg Vec3.z h
          simp only [Tri3.outerProd, Vec3.outer, Vec3.sub, Vec3.zero] at q1 q2 q3
          ext <;> simp only [Tri3.outerProd, Vec3.outer, Vec3.sub, Vec3.zero] <;> linarith)
        (by simp only [Vec3.inner, Vec3.sub]; linear_combination h2 - h1) (by simp only [Vec3.inner, Vec3.sub]; linear_combination -h1)
      unfold Tri3.linScaleRaw
      simp only [e, show (1 + 1 : Fin 3) = 2 from rfl, show (1 + 2 : Fin 3) = 0 from rfl, g0, g1, g2, if_neg k1, k2, Option.map_some, k3, k4]
      congr 1
      funext i
      fin_cases i <;> simp
    · obtain ⟨k1, l, k2, k3, k4⟩ := raw_core (a := t.v2) (b := t.v0) (c := t.v1) (p := p) (y := 1 - y - z) (z := y) (by
          intro h; refine hn ?_
          have q1 := congrArg Vec3.x h
          have q2 := congrArg Vec3.y h
          have q3 := congrArg Vec3.z h
          simp only [Tri3.outerProd, Vec3.outer, Vec3.sub, Vec3.zero] at q1 q2 q3
          ext <;> simp only [Tri3.outerProd, Vec3.outer, Vec3.sub, Vec3.zero] <;> linarith)
        (by simp only [Vec3.inner, Vec3.sub]; linear_combination -h2) (by simp only [Vec3.inner, Vec3.sub]; linear_combination h1 - h2)
      unfold Tri3.linScaleRaw
      simp only [e, show (2 + 1 : Fin 3) = 0 from rfl, show (2 + 2 : Fin 3) = 1 from rfl, g0, g1, g2, if_neg k1, k2, Option.map_some, k3, k4]
      congr 1
      funext i
      fin_cases i <;> simp <;> ring
  unfold Tri3.linScale
  rw [key, Option.bind_some]
  exact (if_neg (not_lt.2 hx)).trans ((if_neg (not_lt.2 hy)).trans (if_neg (not_lt.2 hz)))

/-! ## Sums over the slots -/

/-- The number of corners of the face at the slot. -/
private noncomputable def hits (u : Fin 3 → Vec3 ℝ) (x : PSlot) : ℕ := by
  classical exact (if u 0 = x.w then 1 else 0) + (if u 1 = x.w then 1 else 0) + (if u 2 = x.w then 1 else 0)

open Classical in
private noncomputable def gain (u : Fin 3 → Vec3 ℝ) (l : Fin 3 → ℝ) (g : PSlot → ℝ) (x : PSlot) : ℝ :=
  (if u 0 = x.w then l 0 * g x else 0) + (if u 1 = x.w then l 1 * g x else 0) + (if u 2 = x.w then l 2 * g x else 0)

private theorem equal_zero {a b : Vec3 ℝ} : a.equal 0 b ↔ a = b := by
  unfold Vec3.equal zIsTol
  simp only [abs_nonpos_iff, sub_eq_zero]
  exact ⟨fun h => Vec3.ext h.1 h.2.1 h.2.2, fun h => by rw [h]; exact ⟨rfl, rfl, rfl⟩⟩

private theorem slotStep_eq (ph : PH ℝ) (f : Face ℝ) (l : Fin 3 → ℝ) (c : Vec3 ℝ × Vec3 ℝ × ℕ) (x : PSlot) (h : c.2.2 ≠ 3) :
    slotStep 0 ph f l c x =
      let u := ![ph.vert f.i0, ph.vert f.i1, ph.vert f.i2]
      (c.1.add ⟨gain u l (·.p1.x) x, gain u l (·.p1.y) x, gain u l (·.p1.z) x⟩,
       c.2.1.add ⟨gain u l (·.p2.x) x, gain u l (·.p2.y) x, gain u l (·.p2.z) x⟩, c.2.2 + hits u x) := by
  obtain ⟨c1, c2, j⟩ := c
  unfold slotStep
  rw [if_neg h]
  simp only [cornerStep, equal_zero, gain, hits, Matrix.cons_val_zero, Matrix.cons_val_one, Matrix.cons_val]
  by_cases h0 : ph.vert f.i0 = x.w <;> by_cases h1 : ph.vert f.i1 = x.w <;> by_cases h2 : ph.vert f.i2 = x.w <;>
    simp only [h0, h1, h2, if_true, if_false, Vec3.cat, Vec3.add] <;>
    refine Prod.ext ?_ (Prod.ext ?_ ?_) <;> (try ext) <;> simp <;> ring

private theorem fold_sum (ph : PH ℝ) (f : Face ℝ) (l : Fin 3 → ℝ) (slots : List PSlot) : ∀ c : Vec3 ℝ × Vec3 ℝ × ℕ,
    c.2.2 + (slots.map (hits ![ph.vert f.i0, ph.vert f.i1, ph.vert f.i2])).sum ≤ 3 →
    slots.foldl (slotStep 0 ph f l) c =
      let u := ![ph.vert f.i0, ph.vert f.i1, ph.vert f.i2]
      let S := fun g => (slots.map (gain u l g)).sum
      (c.1.add ⟨S (·.p1.x), S (·.p1.y), S (·.p1.z)⟩, c.2.1.add ⟨S (·.p2.x), S (·.p2.y), S (·.p2.z)⟩,
        c.2.2 + (slots.map (hits u)).sum) := by
  induction slots with
  | nil =>
    intro c _
    refine Prod.ext ?_ (Prod.ext ?_ ?_) <;> simp [Vec3.add]
  | cons x slots ih =>
    intro c hc
    rw [List.map_cons, List.sum_cons] at hc
    rw [List.foldl_cons]
    by_cases h3 : c.2.2 = 3
    · have hx0 : hits ![ph.vert f.i0, ph.vert f.i1, ph.vert f.i2] x = 0 := by omega
      have hg0 : ∀ g, gain ![ph.vert f.i0, ph.vert f.i1, ph.vert f.i2] l g x = 0 := by
        intro g
        simp only [hits] at hx0
        unfold gain
        split_ifs at hx0 ⊢ <;> first | omega | simp
      have e : slotStep 0 ph f l c x = c := by unfold slotStep; rw [if_pos h3]
      rw [e, ih c (by omega)]
      simp only [List.map_cons, List.sum_cons, hx0, hg0, zero_add]
    · rw [slotStep_eq ph f l c x h3, ih _ (by dsimp only; omega)]
      simp only [List.map_cons, List.sum_cons]
      refine Prod.ext ?_ (Prod.ext ?_ ?_) <;> simp only [Vec3.add]
      · ext <;> dsimp only <;> ring
      · ext <;> dsimp only <;> ring
      · omega

private theorem sum_unique {slots : List PSlot} (hnd : (slots.map PSlot.w).Nodup) {y : PSlot} (hy : y ∈ slots) {M : Type*} [AddCommMonoid M]
    (g : PSlot → M) [∀ x : PSlot, Decidable (y.w = x.w)] : (slots.map fun x => if y.w = x.w then g x else 0).sum = g y := by
  induction slots with
  | nil => cases hy
  | cons x slots ih =>
    rw [List.map_cons, List.nodup_cons] at hnd
    rw [List.map_cons, List.sum_cons]
    have zero : x = y ∨ y.w = x.w → (slots.map fun x => if y.w = x.w then g x else 0).sum = 0 := by
      intro h
      refine List.sum_eq_zero ?_
      intro m hm
      obtain ⟨x', hx', rfl⟩ := List.mem_map.1 hm
      rw [if_neg]
      intro e
      refine hnd.1 ?_
      have : x.w = x'.w := by rcases h with rfl | h; exacts [e, h.symm.trans e]
      rw [this]
      exact List.mem_map_of_mem hx'
    by_cases h : y.w = x.w
    · rw [if_pos h, zero (Or.inr h), add_zero]
      rcases List.mem_cons.1 hy with rfl | hy
      · rfl
      · exact absurd (by rw [← h]; exact List.mem_map_of_mem hy) hnd.1
    · rw [if_neg h, zero_add]
      rcases List.mem_cons.1 hy with rfl | hy
      · exact absurd rfl h
      · exact ih hnd.2 hy

/-- The two points at the end, when the corners of the face are different slots. -/
theorem fold_slots {ph : PH ℝ} {f : Face ℝ} {l : Fin 3 → ℝ} {slots : List PSlot} (hnd : (slots.map PSlot.w).Nodup) {a b c : PSlot}
    (ha : a ∈ slots) (hb : b ∈ slots) (hc : c ∈ slots) (ea : ph.vert f.i0 = a.w) (eb : ph.vert f.i1 = b.w) (ec : ph.vert f.i2 = c.w) :
    (slots.foldl (slotStep 0 ph f l) (.zero, .zero, 0)).1 = comb (l 0) (l 1) (l 2) 0 a.p1 b.p1 c.p1 a.p1 ∧
    (slots.foldl (slotStep 0 ph f l) (.zero, .zero, 0)).2.1 = comb (l 0) (l 1) (l 2) 0 a.p2 b.p2 c.p2 a.p2 := by
  classical
  have hh : (slots.map (hits ![ph.vert f.i0, ph.vert f.i1, ph.vert f.i2])).sum = 3 := by
    have : (hits ![ph.vert f.i0, ph.vert f.i1, ph.vert f.i2]) = fun x =>
        (if a.w = x.w then 1 else 0) + (if b.w = x.w then 1 else 0) + (if c.w = x.w then 1 else 0) := by
      funext x; simp only [hits, ea, eb, ec, Matrix.cons_val_zero, Matrix.cons_val_one, Matrix.cons_val]
    rw [this, List.sum_map_add, List.sum_map_add, sum_unique hnd ha (fun _ => 1), sum_unique hnd hb (fun _ => 1),
      sum_unique hnd hc (fun _ => 1)]
  have hg : ∀ g : PSlot → ℝ, (slots.map (gain ![ph.vert f.i0, ph.vert f.i1, ph.vert f.i2] l g)).sum = l 0 * g a + l 1 * g b + l 2 * g c := by
    intro g
    have : (gain ![ph.vert f.i0, ph.vert f.i1, ph.vert f.i2] l g) = fun x =>
        (if a.w = x.w then l 0 * g x else 0) + (if b.w = x.w then l 1 * g x else 0) + (if c.w = x.w then l 2 * g x else 0) := by
      funext x; simp only [gain, ea, eb, ec, Matrix.cons_val_zero, Matrix.cons_val_one, Matrix.cons_val]
    rw [this, List.sum_map_add, List.sum_map_add, sum_unique hnd ha (fun x => l 0 * g x), sum_unique hnd hb (fun x => l 1 * g x),
      sum_unique hnd hc (fun x => l 2 * g x)]
  rw [fold_sum ph f l slots _ (by dsimp only; rw [hh])]
  simp only [hg]
  constructor <;> ext <;> simp only [Vec3.add, Vec3.zero, comb] <;> ring

end Zeo.Depth

import Verif.Lemmas.DepthScale
import Verif.Lemmas.GjkRun
import Verif.Lemmas.Polar
import Verif.Spec.Depth
import Verif.Props.C69

/-! # The loop of the penetration depth at tolerance zero -/

namespace Zeo.Depth
open Spec GJK Polar Classical

private theorem isTol_zero' {v : Vec3 ℝ} : v.isTol 0 ↔ v = .zero := by
  unfold Vec3.isTol zIsTol
  simp only [abs_nonpos_iff]
  exact ⟨fun h => Vec3.ext h.1 h.2.1 h.2.2, fun h => by rw [h]; exact ⟨rfl, rfl, rfl⟩⟩
private theorem equal_zero' {a b : Vec3 ℝ} : a.equal 0 b ↔ a = b := by
  unfold Vec3.equal zIsTol
  simp only [abs_nonpos_iff, sub_eq_zero]
  exact ⟨fun h => Vec3.ext h.1 h.2.1 h.2.2, fun h => by rw [h]; exact ⟨rfl, rfl, rfl⟩⟩

/-- The loop over the faces finds the point nearest to the origin. -/
private theorem closest_fold (ph : PH ℝ) : ∀ (fs : List (Face ℝ)) (b : Option (ℝ × Vec3 ℝ × Face ℝ)),
    (∀ f ∈ fs, Tri3.outerProd (ph.vert f.i0) (ph.vert f.i1) (ph.vert f.i2) ≠ .zero) →
    (∀ r ∈ b, r.1 = ed .zero r.2.1) → (fs = [] → b ≠ none) →
    ∃ r, fs.foldl (faceStep 0 ph .zero) b = some r ∧ r.1 = ed .zero r.2.1 ∧
      (b = some r ∨ r.2.2 ∈ fs ∧ r.2.1 ∈ triangle (ph.vert r.2.2.i0) (ph.vert r.2.2.i1) (ph.vert r.2.2.i2)) ∧
      (∀ r' ∈ b, r.1 ≤ r'.1) ∧
      ∀ g ∈ fs, ∀ q ∈ triangle (ph.vert g.i0) (ph.vert g.i1) (ph.vert g.i2), r.1 ≤ ed .zero q := by
  intro fs
  induction fs with
  | nil =>
    intro b _ hb hne
    obtain ⟨r, rfl⟩ := Option.ne_none_iff_exists'.1 (hne rfl)
    exact ⟨r, rfl, hb r rfl, Or.inl rfl, fun r' h => by obtain rfl := Option.some.inj h; exact le_rfl, by simp⟩
  | cons f fs ih =>
    intro b hf hb _
    obtain ⟨r0, hr, ⟨hm, hn⟩, hd⟩ := C20_closest_partial 0 le_rfl (by norm_num) (ph.vert f.i0) (ph.vert f.i1) (ph.vert f.i2) .zero
      (Or.inl (by rw [isTol_zero']; exact hf f (List.mem_cons_self ..)))
    have near : ∀ q ∈ triangle (ph.vert f.i0) (ph.vert f.i1) (ph.vert f.i2), r0.1 ≤ ed .zero q := by
      intro q hq
      rw [hd]
      exact Real.sqrt_le_sqrt (hn q hq)
    rw [List.foldl_cons]
    obtain ⟨b', hb', h1, h2, h3, h4⟩ : ∃ b', faceStep 0 ph .zero b f = some b' ∧ b'.1 = ed .zero b'.2.1 ∧
        (b = some b' ∨ b' = (r0.1, r0.2, f)) ∧ (∀ r' ∈ b, b'.1 ≤ r'.1) ∧ b'.1 ≤ r0.1 := by
      unfold faceStep
      rw [hr]
      cases b with
      | none => exact ⟨_, rfl, hd, Or.inr rfl, by simp, le_rfl⟩
      | some b =>
        dsimp only
        split
        · rename_i hlt
          exact ⟨_, rfl, hd, Or.inr rfl, fun r' h => by obtain rfl := Option.some.inj h; exact hlt.le, le_rfl⟩
        · rename_i hlt
          exact ⟨_, rfl, hb b rfl, Or.inl rfl, fun r' h => by obtain rfl := Option.some.inj h; exact le_rfl, not_lt.1 hlt⟩
    rw [hb']
    obtain ⟨r, k1, k2, k3, k4, k5⟩ := ih (some b') (fun g hg => hf g (List.mem_cons_of_mem _ hg))
      (fun r h => by obtain rfl := Option.some.inj h; exact h1) (fun _ h => by cases h)
    refine ⟨r, k1, k2, ?_, fun r' h => (k4 b' rfl).trans (h3 r' h), ?_⟩
    · rcases k3 with e | ⟨k, k'⟩
      · obtain rfl := Option.some.inj e
        rcases h2 with h2 | rfl
        · exact Or.inl h2
        · exact Or.inr ⟨List.mem_cons_self .., hm⟩
      · exact Or.inr ⟨List.mem_cons_of_mem _ k, k'⟩
    · intro g hg q hq
      rcases List.mem_cons.1 hg with rfl | hg
      · exact ((k4 b' rfl).trans h4).trans (near q hq)
      · exact k5 g hg q hq

private theorem unit_dot {n s : Vec3 ℝ} {h : ℝ} (hn : dot n n = 1) (h0 : 0 ≤ h) (hs : dot s s ≤ h ^ 2) : dot n s ≤ h := by
  have cs : dot n s ^ 2 ≤ dot n n * dot s s := by
    unfold dot
    nlinarith [sq_nonneg (n.x * s.y - n.y * s.x), sq_nonneg (n.y * s.z - n.z * s.y), sq_nonneg (n.z * s.x - n.x * s.z)]
  rw [hn, one_mul] at cs
  exact (le_abs_self _).trans (abs_le_of_sq_le_sq (cs.trans hs) h0)

/-- The points on both sides of each plane through the origin. -/
def Around (l : List (Vec3 ℝ)) : Prop := ∀ n, dot n n = 1 → ∃ p ∈ l, 0 < dot n p

private theorem around_not_coplanar {l : List (Vec3 ℝ)} (h : Around l) : ¬ Coplanar {p | p ∈ l} := by
  rintro ⟨n, hn, c, hc⟩
  have hp := dot_self_pos hn
  set r := 1 / Real.sqrt (dot n n) with hr
  have hr0 : 0 < r := by positivity
  have unit : ∀ s : ℝ, s ^ 2 = 1 → dot (n.mul (s * r)) (n.mul (s * r)) = 1 := by
    intro s hs
    have : dot (n.mul (s * r)) (n.mul (s * r)) = s ^ 2 * r ^ 2 * dot n n := by simp only [dot, Vec3.mul]; ring
    rw [this, hs, hr, div_pow, Real.sq_sqrt hp.le]
    field_simp
  obtain ⟨p, hp1, hp2⟩ := h (n.mul (1 * r)) (unit 1 (by norm_num))
  obtain ⟨q, hq1, hq2⟩ := h (n.mul (-1 * r)) (unit (-1) (by norm_num))
  rw [dot_comm, dot_mul, dot_comm, hc p hp1] at hp2
  rw [dot_comm, dot_mul, dot_comm, hc q hq1] at hq2
  nlinarith

/-- The face of the hull that is nearest to the origin. -/
theorem nearest_face {sort : (Vec3 ℝ → Vec3 ℝ → ℤ) → List (Vec3 ℝ) → List (Vec3 ℝ)} {d : Data (Vec3 ℝ)} (ha : Around d.toAddrList) :
    ∃ ph D v f h, convexHull3 0 sort d = some ph ∧ faceClosest 0 ph .zero = some (D, v, f) ∧ f ∈ ph.face ∧
      v ∈ triangle (ph.vert f.i0) (ph.vert f.i1) (ph.vert f.i2) ∧
      Tri3.outerProd (ph.vert f.i0) (ph.vert f.i1) (ph.vert f.i2) ≠ .zero ∧
      (∀ i ∈ [f.i0, f.i1, f.i2], ph.vert i ∈ d.toAddrList ∧ dot f.norm (ph.vert i) = h) ∧
      dot f.norm f.norm = 1 ∧ 0 < h ∧ v = f.norm.mul h ∧ (∀ p ∈ d.toAddrList, dot f.norm p ≤ h) ∧
      ∀ s, dot s s ≤ h ^ 2 → InHull {p | p ∈ d.toAddrList} s := by
  have hn := around_not_coplanar ha
  have hg := C69_exact d.toAddrList
  obtain ⟨ph, e⟩ := C69_some (sort := sort) le_rfl hg hn
  obtain ⟨hval, hvd, -, hcor, -⟩ := C69_mesh le_rfl hg hn e
  obtain ⟨hun, hfc⟩ := C69_faces le_rfl hg hn e
  have hhull := C69_hull le_rfl hg hn e
  have hsurf := C69_surface le_rfl hg hn e
  have hu : ∀ f ∈ ph.face, dot f.norm f.norm = 1 := by
    intro f hf; have := hun f hf; unfold dot; nlinarith
  have hheight : ∀ (f : Face ℝ) (p : Vec3 ℝ), height ⟨ph.vert f.i0, f.norm⟩ p = dot f.norm p - dot f.norm (ph.vert f.i0) := by
    intro f p; unfold height dot; ring
  have hple : ∀ f ∈ ph.face, ∀ p ∈ d.toAddrList, dot f.norm p ≤ dot f.norm (ph.vert f.i0) := by
    intro f hf p hp
    have := (hfc f hf).2 p hp
    rw [hheight] at this
    rcases this with h | h <;> linarith
  have hpos : ∀ f ∈ ph.face, 0 < dot f.norm (ph.vert f.i0) := by
    intro f hf
    obtain ⟨p, hp, hp0⟩ := ha f.norm (hu f hf)
    exact hp0.trans_le (hple f hf p hp)
  have htri : ∀ f ∈ ph.face, triNormal (ph.vert f.i0, ph.vert f.i1, ph.vert f.i2) ≠ .zero := by
    intro f hf h0
    have h1 := hu f hf
    rw [(hfc f hf).1, unitNormal, h0] at h1
    simp [unitV, Vec3.zero, dot] at h1
  have hout : ∀ f ∈ ph.face, Tri3.outerProd (ph.vert f.i0) (ph.vert f.i1) (ph.vert f.i2) ≠ .zero := by
    intro f hf h0
    refine htri f hf ?_
    have q1 := congrArg Vec3.x h0
    have q2 := congrArg Vec3.y h0
    have q3 := congrArg Vec3.z h0
    simp only [Tri3.outerProd, Vec3.outer, Vec3.sub, Vec3.zero] at q1 q2 q3
    ext <;> simp only [triNormal, Vec3.zero] <;> linarith
  have hedge : ∀ f ∈ ph.face, ∀ i ∈ [f.i0, f.i1, f.i2], dot f.norm (ph.vert i) = dot f.norm (ph.vert f.i0) := by
    intro f hf i hi
    rw [(hfc f hf).1]
    simp only [List.mem_cons, List.not_mem_nil, or_false] at hi
    rcases hi with rfl | rfl | rfl
    · rfl
    · simp only [unitNormal, unitV, triNormal, dot]; ring
    · simp only [unitNormal, unitV, triNormal, dot]; ring
  have hne : ph.face ≠ [] := by
    intro h0
    have := (hhull ⟨0, 0, 0⟩).2.2 (by rw [h0]; simp)
    obtain ⟨n, L, p, hp, -, hs, -⟩ := (hhull ⟨0, 0, 0⟩).1.2 this
    cases n with
    | zero => simp at hs
    | succ n =>
      obtain ⟨i, hi, -⟩ := hp 0
      obtain ⟨f, hf, -⟩ := hcor i hi
      rw [h0] at hf; cases hf
  obtain ⟨⟨D, v, f⟩, k1, k2, k3, -, k5⟩ := closest_fold ph ph.face none hout (by simp) (fun h => absurd h hne)
  obtain ⟨kf, kt⟩ := k3.resolve_left (by simp)
  dsimp only at k2 kf kt k5
  -- the face with the least offset
  obtain ⟨g, hgf, hgm⟩ : ∃ g ∈ ph.face, ∀ k ∈ ph.face, dot g.norm (ph.vert g.i0) ≤ dot k.norm (ph.vert k.i0) := by
    obtain ⟨g, hg1, hg2⟩ := (ph.face.toFinset).exists_min_image (fun k => dot k.norm (ph.vert k.i0))
      ⟨f, List.mem_toFinset.2 kf⟩
    exact ⟨g, List.mem_toFinset.1 hg1, fun k hk => hg2 k (List.mem_toFinset.2 hk)⟩
  set m := dot g.norm (ph.vert g.i0) with hm
  have hm0 : 0 < m := hpos g hgf
  have ball : ∀ s, dot s s ≤ m ^ 2 → InHull {p | p ∈ d.toAddrList} s := by
    intro s hs
    refine (hhull s).2.2 fun k hk => ?_
    rw [hheight]
    have := unit_dot (hu k hk) hm0.le hs
    have := hgm k hk
    linarith
  have hqq : dot (g.norm.mul m) (g.norm.mul m) = m ^ 2 := by
    rw [dot_mul, dot_comm, dot_mul, hu g hgf]; ring
  obtain ⟨k, hk, hkt⟩ := (hsurf (g.norm.mul m)).2 ⟨ball _ hqq.le, g, hgf, by
    rw [hheight, dot_mul, hu g hgf]; ring⟩
  have hle := k5 k hk _ hkt
  have sq0 : ∀ x : Vec3 ℝ, sqd .zero x = dot x x := by intro x; simp only [sqd, Vec3.zero, dot]; ring
  have hvv : dot v v ≤ m ^ 2 := by
    rw [k2] at hle
    have := (Real.sqrt_le_sqrt_iff (by rw [sq0, hqq]; positivity)).1 hle
    rwa [sq0, sq0, hqq] at this
  set h := dot f.norm (ph.vert f.i0) with hh
  have hmh : m ≤ h := hgm f kf
  have hnv : dot f.norm v = h := by
    obtain ⟨a, b, c, -, -, -, hs, rfl⟩ := kt
    have e1 := hedge f kf f.i1 (by simp)
    have e2 := hedge f kf f.i2 (by simp)
    have : dot f.norm (comb a b c 0 (ph.vert f.i0) (ph.vert f.i1) (ph.vert f.i2) (ph.vert f.i0)) =
        a * dot f.norm (ph.vert f.i0) + b * dot f.norm (ph.vert f.i1) + c * dot f.norm (ph.vert f.i2) := by
      simp only [dot, comb]; ring
    rw [this, e1, e2, ← hh]
    linear_combination h * hs
  have hnm : h ≤ m := by rw [← hnv]; exact unit_dot (hu f kf) hm0.le hvv
  have hmeq : h = m := le_antisymm hnm hmh
  have hveq : v = f.norm.mul h := by
    have : dot (v.sub (f.norm.mul h)) (v.sub (f.norm.mul h)) ≤ 0 := by
      have e : dot (v.sub (f.norm.mul h)) (v.sub (f.norm.mul h)) = dot v v - 2 * h * dot f.norm v + h ^ 2 * dot f.norm f.norm := by
        simp only [dot, Vec3.sub, Vec3.mul]; ring
      rw [e, hnv, hu f kf, hmeq]; linarith
    have hz : v.sub (f.norm.mul h) = .zero := by
      by_contra hne
      exact absurd (dot_self_pos hne) (not_lt.2 this)
    have q1 := congrArg Vec3.x hz
    have q2 := congrArg Vec3.y hz
    have q3 := congrArg Vec3.z hz
    simp only [Vec3.sub, Vec3.zero] at q1 q2 q3
    ext <;> linarith
  refine ⟨ph, D, v, f, h, e, k1, kf, kt, hout f kf, ?_, hu f kf, hmeq ▸ hm0, hveq, fun p hp => hple f kf p hp, hmeq ▸ ball⟩
  intro i hi
  refine ⟨hvd i ?_, hedge f kf i hi⟩
  obtain ⟨q0, q1, q2⟩ := hval f kf
  simp only [List.mem_cons, List.not_mem_nil, or_false] at hi
  rcases hi with rfl | rfl | rfl <;> assumption

/-! ## The loop -/

section
variable {xs ys : List (Vec3 ℝ)}

/-- The slots are pairs of points of the two sets, with different differences; `data` has the differences. -/
structure Good (xs ys : List (Vec3 ℝ)) (st : PState) : Prop where
  data : st.data = Data.lst false (st.slots.map PSlot.w) none
  slot : ∀ x ∈ st.slots, x.w = x.p1.sub x.p2 ∧ x.p1 ∈ xs ∧ x.p2 ∈ ys
  nodup : (st.slots.map PSlot.w).Nodup
  around : Around (st.slots.map PSlot.w)

/-- If the slots are behind the plane at `vt` then all differences are. -/
def Stop (xs ys : List (Vec3 ℝ)) (st : PState) (vt : Vec3 ℝ) : Prop :=
  ∀ n h, dot n n = 1 → 0 < h → vt = n.mul h → (∀ x ∈ st.slots, dot n x.w ≤ h) → ∀ w ∈ differences xs ys, dot n w ≤ h

private theorem lst_toAddrList (l : List (Vec3 ℝ)) : (Data.lst false l none).toAddrList = l := by
  have h1 := C35_toAddrList (Data.lst false l none) (by intro k hk; cases hk)
  have h2 : (Data.lst false l none).Shows l := by
    have := (show (Data.lst false l none).WF by intro k hk; cases hk).shows
    exact this
  exact C35_shows_unique _ _ _ h1 h2

private theorem mul_inj {n n' : Vec3 ℝ} {h h' : ℝ} (hn : dot n n = 1) (hn' : dot n' n' = 1) (h0 : 0 < h) (h0' : 0 < h')
    (e : n.mul h = n'.mul h') : n = n' ∧ h = h' := by
  have e2 : dot (n.mul h) (n.mul h) = dot (n'.mul h') (n'.mul h') := by rw [e]
  rw [dot_mul, dot_comm, dot_mul, hn, dot_mul, dot_comm, dot_mul, hn'] at e2
  have hh : h = h' := by nlinarith
  subst hh
  refine ⟨?_, rfl⟩
  have q1 := congrArg Vec3.x e
  have q2 := congrArg Vec3.y e
  have q3 := congrArg Vec3.z e
  simp only [Vec3.mul] at q1 q2 q3
  have hne := h0.ne'
  ext
  · exact mul_right_cancel₀ hne (by linarith)
  · exact mul_right_cancel₀ hne (by linarith)
  · exact mul_right_cancel₀ hne (by linarith)

/-- What the loop ends with. -/
structure End (xs ys : List (Vec3 ℝ)) (slots : List PSlot) (ph : PH ℝ) (f : Face ℝ) (v : Vec3 ℝ) (h : ℝ) : Prop where
  slot : ∀ x ∈ slots, x.w = x.p1.sub x.p2 ∧ x.p1 ∈ xs ∧ x.p2 ∈ ys
  nodup : (slots.map PSlot.w).Nodup
  mem : v ∈ triangle (ph.vert f.i0) (ph.vert f.i1) (ph.vert f.i2)
  flat : Tri3.outerProd (ph.vert f.i0) (ph.vert f.i1) (ph.vert f.i2) ≠ .zero
  verts : ∀ i ∈ [f.i0, f.i1, f.i2], ph.vert i ∈ slots.map PSlot.w ∧ dot f.norm (ph.vert i) = h
  unit : dot f.norm f.norm = 1
  pos : 0 < h
  eq : v = f.norm.mul h
  ball : ∀ s, dot s s ≤ h ^ 2 → InHull {p | p ∈ slots.map PSlot.w} s
  sup : ∀ w ∈ differences xs ys, dot f.norm w ≤ h

theorem loop_end {sort : (Vec3 ℝ → Vec3 ℝ → ℤ) → List (Vec3 ℝ) → List (Vec3 ℝ)} {d1 d2 : Data (Vec3 ℝ)} (w1 : d1.WF) (w2 : d2.WF)
    (s1 : d1.Shows xs) (s2 : d2.Shows ys) (hx : xs ≠ []) (hy : ys ≠ []) : ∀ (fuel : ℕ) (st : PState) (vt : Vec3 ℝ), Good xs ys st →
    Stop xs ys st vt → xs.length * ys.length < st.slots.length + fuel →
    ∃ slots ph f v h v', pdLoop 0 sort d1 d2 fuel st vt = some (.done slots ph f v') ∧ (v' = v ∨ v' = v.rev) ∧
      End xs ys slots ph f v h := by
  intro fuel
  induction fuel with
  | zero =>
    intro st vt hg _ hlt
    exfalso
    have sub : st.slots.map PSlot.w ⊆ (xs ×ˢ ys).map fun q => q.1.sub q.2 := by
      intro w hw
      obtain ⟨x, hx, rfl⟩ := List.mem_map.1 hw
      obtain ⟨e, h1, h2⟩ := hg.slot x hx
      rw [e]
      exact List.mem_map.2 ⟨(x.p1, x.p2), List.mem_product.2 ⟨h1, h2⟩, rfl⟩
    have := (List.Nodup.subperm hg.nodup sub).length_le
    rw [List.length_map, List.length_map, List.length_product] at this
    omega
  | succ fuel ih =>
    intro st vt hg hst hlt
    have hl : st.data.toAddrList = st.slots.map PSlot.w := by rw [hg.data, lst_toAddrList]
    obtain ⟨ph, D, v, f, h, e1, e2, -, hv, hout, hvt, hu, hpos, hveq, hle, hball⟩ :=
      nearest_face (sort := sort) (d := st.data) (by rw [hl]; exact hg.around)
    rw [hl] at hvt hle hball
    have fin : (∀ w ∈ differences xs ys, dot f.norm w ≤ h) → End xs ys st.slots ph f v h := fun hsup =>
      ⟨hg.slot, hg.nodup, hv, hout, hvt, hu, hpos, hveq, hball, hsup⟩
    rw [pdLoop, e1]
    dsimp only
    rw [e2]
    dsimp only
    by_cases hq : v.equal 0 vt
    · rw [if_pos hq]
      refine ⟨_, _, _, v, h, _, rfl, Or.inl rfl, fin ?_⟩
      rw [equal_zero'] at hq
      exact hst f.norm h hu hpos (hq ▸ hveq) fun x hx => hle _ (List.mem_map_of_mem hx)
    · rw [if_neg hq]
      obtain ⟨p, hp, hpm, hpo⟩ := (C36_supportMap d1 w1 xs s1 v.rev.rev).resolve_left fun h => hx h.1
      obtain ⟨q, hq', hqm, hqo⟩ := (C36_supportMap d2 w2 ys s2 v.rev).resolve_left fun h => hy h.1
      have hsm : supportMap d1 d2 v.rev = some (p, q) := by rw [supportMap, hp, hq']
      have hmax : ∀ w ∈ differences xs ys, dot f.norm w ≤ dot f.norm (p.sub q) := by
        rintro w ⟨a, ha, b, hb, rfl⟩
        have a1 := hpo a ha
        have a2 := hqo b hb
        have : h * dot f.norm (a.sub b) ≤ h * dot f.norm (p.sub q) := by
          rw [hveq] at a1 a2
          simp only [Vec3.rev, Vec3.mul] at a1 a2
          simp only [dot, Vec3.sub]
          linarith
        exact le_of_mul_le_mul_left this hpos
      rw [hsm]
      dsimp only
      by_cases hin : ∃ x ∈ st.slots, (p.sub q).equal 0 x.w
      · rw [if_pos hin]
        refine ⟨_, _, _, v, h, _, rfl, Or.inr rfl, fin ?_⟩
        obtain ⟨x, hx, ex⟩ := hin
        rw [equal_zero'] at ex
        intro w hw
        refine (hmax w hw).trans ?_
        rw [ex]
        exact hle _ (List.mem_map_of_mem hx)
      · rw [if_neg hin]
        have hmap : (st.push (p, q)).slots.map PSlot.w = st.slots.map PSlot.w ++ [p.sub q] := by simp [PState.push]
        refine ih _ _ ⟨?_, ?_, ?_, ?_⟩ ?_ ?_
        · rw [hmap]
          simp only [PState.push, hg.data, Data.add]
        · intro x hx
          rcases List.mem_append.1 hx with hx | hx
          · exact hg.slot x hx
          · obtain rfl := List.mem_singleton.1 hx
            exact ⟨rfl, hpm, hqm⟩
        · rw [hmap, List.nodup_append]
          refine ⟨hg.nodup, List.nodup_singleton _, ?_⟩
          intro a ha b hb hab
          obtain rfl := List.mem_singleton.1 hb
          obtain ⟨x, hx, rfl⟩ := List.mem_map.1 ha
          exact hin ⟨x, hx, equal_zero'.2 hab.symm⟩
        · intro n hn
          obtain ⟨w, hw, h0⟩ := hg.around n hn
          exact ⟨w, by rw [hmap]; exact List.mem_append_left _ hw, h0⟩
        · intro n k hn hk ev hsl w hw
          obtain ⟨rfl, rfl⟩ := mul_inj hu hn hpos hk (hveq.symm.trans ev)
          refine (hmax w hw).trans ?_
          have := hsl ⟨p.sub q, p, q⟩ (by simp [PState.push])
          exact this
        · have : (st.push (p, q)).slots.length = st.slots.length + 1 := by simp [PState.push]
          omega

private theorem hull_tri {S : Set (Vec3 ℝ)} {a b c : Vec3 ℝ} (ha : a ∈ S) (hb : b ∈ S) (hc : c ∈ S) {x y z : ℝ} (hx : 0 ≤ x) (hy : 0 ≤ y)
    (hz : 0 ≤ z) (hs : x + y + z = 1) : InHull S (comb x y z 0 a b c a) := by
  refine ⟨3, ![x, y, z], ![a, b, c], ?_, ?_, ?_, ?_⟩
  · intro i; fin_cases i <;> simp [ha, hb, hc]
  · intro i; fin_cases i <;> simp [hx, hy, hz]
  · simp [Fin.sum_univ_three, hs]
  · simp [Fin.sum_univ_three, comb]

private theorem hull_diff {S : Set (Vec3 ℝ)} {T U : Set (Vec3 ℝ)} (hS : ∀ w ∈ S, ∃ a ∈ T, ∃ b ∈ U, w = a.sub b) {s : Vec3 ℝ}
    (hs : InHull S s) : ∃ a b, InHull T a ∧ InHull U b ∧ a = b.add s := by
  obtain ⟨n, L, p, hp, h0, h1, rfl⟩ := hs
  choose a ha b hb hab using fun i => hS (p i) (hp i)
  refine ⟨_, _, ⟨n, L, a, ha, h0, h1, rfl⟩, ⟨n, L, b, hb, h0, h1, rfl⟩, ?_⟩
  simp only [hab, Vec3.add, Vec3.sub, ← Finset.sum_add_distrib]
  ext <;> dsimp only <;> refine Finset.sum_congr rfl fun i _ => ?_ <;> ring

/-- The points that are returned. -/
theorem finish_depth {slots : List PSlot} {ph : PH ℝ} {f : Face ℝ} {v v' : Vec3 ℝ} {h : ℝ} (hE : End xs ys slots ph f v h)
    (hv : v' = v ∨ v' = v.rev) : ∃ c1 c2, pdFinish 0 slots ph f v' = .ret True c1 c2 ∧ IsDepth xs ys c1 c2 := by
  obtain ⟨x, y, z, hx, hy, hz, hs, ev⟩ := hE.mem
  obtain ⟨m0, n0⟩ := hE.verts f.i0 (by simp)
  obtain ⟨m1, n1⟩ := hE.verts f.i1 (by simp)
  obtain ⟨m2, n2⟩ := hE.verts f.i2 (by simp)
  have perp : ∀ i, dot f.norm (ph.vert i) = h → (v'.sub v).inner ((ph.vert i).sub (ph.vert f.i0)) = 0 := by
    intro i hi
    have key : dot f.norm ((ph.vert i).sub (ph.vert f.i0)) = 0 := by rw [dot_sub, hi, n0, sub_self]
    rcases hv with rfl | rfl
    · simp only [Vec3.inner, Vec3.sub]; ring
    · rw [hE.eq]
      simp only [dot, Vec3.sub] at key
      simp only [Vec3.inner, Vec3.sub, Vec3.rev, Vec3.mul]
      linear_combination (-2 * h) * key
  have hl := linScale_foot (t := ph.tri f) (p := v') hE.flat hx hy hz hs
    (by have := perp f.i1 n1; rw [ev] at this; exact this) (by have := perp f.i2 n2; rw [ev] at this; exact this)
  obtain ⟨a, ha, ea⟩ := List.mem_map.1 m0
  obtain ⟨b, hb, eb⟩ := List.mem_map.1 m1
  obtain ⟨c, hc, ec⟩ := List.mem_map.1 m2
  obtain ⟨r1, r2⟩ := fold_slots (l := ![x, y, z]) hE.nodup ha hb hc ea.symm eb.symm ec.symm
  unfold pdFinish
  rw [hl]
  dsimp only
  refine ⟨_, _, rfl, ?_⟩
  rw [r1, r2]
  simp only [Matrix.cons_val_zero, Matrix.cons_val_one, Matrix.cons_val]
  obtain ⟨wa, a1, a2⟩ := hE.slot a ha
  obtain ⟨wb, b1, b2⟩ := hE.slot b hb
  obtain ⟨wc, c1, c2⟩ := hE.slot c hc
  have ediff : (comb x y z 0 a.p1 b.p1 c.p1 a.p1).sub (comb x y z 0 a.p2 b.p2 c.p2 a.p2) = f.norm.mul h := by
    rw [← hE.eq, ev, ← ea, ← eb, ← ec, wa, wb, wc]
    ext <;> simp only [comb, Vec3.sub] <;> ring
  refine ⟨hull_tri a1 b1 c1 hx hy hz hs, hull_tri a2 b2 c2 hx hy hz hs, ⟨f.norm, h, hE.pos.le, hE.unit, ediff, ?_⟩, ?_⟩
  · intro p q hp hq
    rw [ediff, dot_add, dot_mul, hE.unit, mul_one]
    have k1 : ∀ b ∈ ys, dot f.norm p ≤ h + dot f.norm b := fun b hb =>
      QHGeom.dot_hull_le (S := {x | x ∈ xs}) (fun a ha => by
        have := hE.sup (a.sub b) ⟨a, ha, b, hb, rfl⟩
        rw [dot_sub] at this; linarith) hp
    have k2 := QHGeom.dot_hull_le (S := {x | x ∈ ys}) (w := f.norm.mul (-1)) (k := h - dot f.norm p) (fun b hb => by
        have := k1 b hb
        rw [dot_comm, dot_mul, dot_comm]; linarith) hq
    rw [dot_comm, dot_mul, dot_comm] at k2
    linarith
  · intro s hs'
    rw [ediff, dot_mul, dot_comm (f.norm.mul h), dot_mul, hE.unit] at hs'
    refine hull_diff (S := {p | p ∈ slots.map PSlot.w}) ?_ (hE.ball s (by nlinarith))
    intro w hw
    obtain ⟨x, hx, rfl⟩ := List.mem_map.1 hw
    obtain ⟨e, h1, h2⟩ := hE.slot x hx
    exact ⟨_, h1, _, h2, e⟩

end

end Zeo.Depth

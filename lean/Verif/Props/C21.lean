import Verif.Props.C20

/-! # C21: the closest point of a tetrahedron, and of a triangle in the plane -/

namespace Zeo

private theorem ed_lt_iff {p q r s : Vec3 ℝ} : Spec.ed p q < Spec.ed r s ↔ Spec.sqd p q < Spec.sqd r s :=
  Real.sqrt_lt_sqrt_iff (sqd_nonneg _ _)
private theorem ed2_lt_iff {p q r s : Vec2 ℝ} : Spec.ed2 p q < Spec.ed2 r s ↔ Spec.sqd2 p q < Spec.sqd2 r s :=
  Real.sqrt_lt_sqrt_iff (sqd2_nonneg _ _)

/-- What a result record has to satisfy for the tetrahedron. -/
def TetraValid (v0 v1 v2 v3 : Vec3 ℝ) (r : TetraRes) : Prop :=
  r.dist = Spec.ed .zero r.cp ∧ 0 ≤ r.s0 ∧ 0 ≤ r.s1 ∧ 0 ≤ r.s2 ∧ 0 ≤ r.s3 ∧ r.s0 + r.s1 + r.s2 + r.s3 = 1 ∧
    r.cp = Spec.comb r.s0 r.s1 r.s2 r.s3 v0 v1 v2 v3

/-- Loop invariant of the facet tests. `S` is what has been examined; `none` means no facet was
examined. -/
private def Best (v0 v1 v2 v3 : Vec3 ℝ) (S : Set (Vec3 ℝ)) (none_ : Prop) : Option TetraRes → Prop
  | none => S = ∅ ∧ none_
  | some r => TetraValid v0 v1 v2 v3 r ∧ (∀ q ∈ S, Spec.sqd .zero r.cp ≤ Spec.sqd .zero q) ∧ ¬ none_

private theorem best_step {τ s : ℝ} (hτ : 0 ≤ τ) (hτ' : τ ≤ 1/4) {v0 v1 v2 v3 va vb vc : Vec3 ℝ} {S : Set (Vec3 ℝ)} {N : Prop} {best : Option TetraRes}
    {mk : ℝ → ℝ → ℝ → ℝ × ℝ × ℝ × ℝ} (hb : Best v0 v1 v2 v3 S N best)
    (hnd : ¬ (Tri3.outerProd va vb vc).isTol τ)
    (hmk : ∀ a b c, 0 ≤ a → 0 ≤ b → 0 ≤ c → a + b + c = 1 → 0 ≤ (mk a b c).1 ∧ 0 ≤ (mk a b c).2.1 ∧ 0 ≤ (mk a b c).2.2.1 ∧
      0 ≤ (mk a b c).2.2.2 ∧
      (mk a b c).1 + (mk a b c).2.1 + (mk a b c).2.2.1 + (mk a b c).2.2.2 = 1 ∧
      Spec.comb a b c 0 va vb vc va = Spec.comb (mk a b c).1 (mk a b c).2.1 (mk a b c).2.2.1 (mk a b c).2.2.2 v0 v1 v2 v3) :
    Best v0 v1 v2 v3 (S ∪ {q | s < 0 ∧ q ∈ Spec.triangle va vb vc}) (N ∧ 0 ≤ s) (Tetra.testTri τ s va vb vc mk best) := by
  by_cases hs0 : s < 0
  · obtain ⟨r, hr, ⟨hm, hn⟩, hd, h0, h1, h2, hs, hc⟩ := C20_fromOrigin τ hτ hτ' va vb vc (Or.inl hnd)
    obtain ⟨m0, m1, m2, m3, ms, mc⟩ := hmk r.s0 r.s1 r.s2 h0 h1 h2 hs
    rw [Tetra.testTri, if_pos hs0, hr]
    dsimp only
    cases best with
    | none =>
      rw [if_pos (by trivial)]
      refine ⟨⟨norm_eq_ed_zero _, m0, m1, m2, m3, ms, hc.trans mc⟩, ?_, fun h => absurd h.2 (not_le.2 hs0)⟩
      have hS : S = ∅ := hb.1
      rintro q (hq | ⟨-, hq⟩)
      · rw [hS] at hq; exact hq.elim
      · exact hn q hq
    | some b =>
      obtain ⟨hv, hb, hN⟩ := hb
      by_cases hlt : r.dist < b.dist
      · rw [if_pos (by exact hlt)]
        refine ⟨⟨norm_eq_ed_zero _, m0, m1, m2, m3, ms, hc.trans mc⟩, ?_, fun h => hN h.1⟩
        rw [hd, hv.1, ed_lt_iff] at hlt
        rintro q (hq | ⟨-, hq⟩)
        · exact hlt.le.trans (hb q hq)
        · exact hn q hq
      · rw [if_neg (by exact hlt)]
        refine ⟨hv, ?_, fun h => hN h.1⟩
        rw [hd, hv.1, ed_lt_iff, not_lt] at hlt
        rintro q (hq | ⟨-, hq⟩)
        · exact hb q hq
        · exact hlt.trans (hn q hq)
  · have : S ∪ {q | s < 0 ∧ q ∈ Spec.triangle va vb vc} = S := by ext q; simp [hs0]
    rw [this, Tetra.testTri, if_neg hs0]
    cases best with
    | none => exact ⟨hb.1, hb.2, not_lt.1 hs0⟩
    | some b => exact ⟨hb.1, hb.2.1, fun h => hb.2.2 h.1⟩

private theorem on_facet {v0 v1 v2 v3 : Vec3 ℝ} (l : Fin 4 → ℝ) (hl : ∀ i, 0 ≤ l i) (hs : l 0 + l 1 + l 2 + l 3 = 1) :
    (l 0 = 0 → Spec.comb (l 0) (l 1) (l 2) (l 3) v0 v1 v2 v3 ∈ Spec.triangle v1 v2 v3) ∧
    (l 1 = 0 → Spec.comb (l 0) (l 1) (l 2) (l 3) v0 v1 v2 v3 ∈ Spec.triangle v2 v3 v0) ∧
    (l 2 = 0 → Spec.comb (l 0) (l 1) (l 2) (l 3) v0 v1 v2 v3 ∈ Spec.triangle v3 v0 v1) ∧
    (l 3 = 0 → Spec.comb (l 0) (l 1) (l 2) (l 3) v0 v1 v2 v3 ∈ Spec.triangle v0 v1 v2) := by
  refine ⟨fun h => ⟨l 1, l 2, l 3, hl 1, hl 2, hl 3, by linarith, ?_⟩, fun h => ⟨l 2, l 3, l 0, hl 2, hl 3, hl 0, by linarith, ?_⟩,
    fun h => ⟨l 3, l 0, l 1, hl 3, hl 0, hl 1, by linarith, ?_⟩, fun h => ⟨l 0, l 1, l 2, hl 0, hl 1, hl 2, by linarith, ?_⟩⟩
  all_goals ext <;> simp only [Spec.comb, h] <;> ring

/-- **From the origin**: for a tetrahedron of non-zero volume whose four facets are above the
tolerance, the result is the nearest point of the solid, with valid barycentric weights. -/
theorem C21_fromOrigin (τ : ℝ) (hτ : 0 ≤ τ) (hτ' : τ ≤ 1/4) (v0 v1 v2 v3 : Vec3 ℝ)
    (hvol : (v1.sub v0).inner ((v2.sub v0).outer (v3.sub v0)) ≠ 0)
    (f0 : ¬ (Tri3.outerProd v1 v2 v3).isTol τ) (f1 : ¬ (Tri3.outerProd v2 v3 v0).isTol τ)
    (f2 : ¬ (Tri3.outerProd v3 v0 v1).isTol τ) (f3 : ¬ (Tri3.outerProd v0 v1 v2).isTol τ) :
    ∃ r, Tetra.closestFromOrigin τ v0 v1 v2 v3 = some r ∧
      Spec.IsNearest (Spec.tetra v0 v1 v2 v3) .zero r.cp ∧ r.dist = Spec.ed .zero r.cp ∧
      0 ≤ r.s0 ∧ 0 ≤ r.s1 ∧ 0 ≤ r.s2 ∧ 0 ≤ r.s3 ∧ r.s0 + r.s1 + r.s2 + r.s3 = 1 ∧
      r.cp = Spec.comb r.s0 r.s1 r.s2 r.s3 v0 v1 v2 v3 := by
  have hd : Vec3.grassmann v3 v2 v1 + Vec3.grassmann v2 v3 v0 + Vec3.grassmann v1 v0 v3 + Vec3.grassmann v0 v1 v2 =
      -(v1.sub v0).inner ((v2.sub v0).outer (v3.sub v0)) := by
    simp only [zeo]; ring
  have hd0 : Vec3.grassmann v3 v2 v1 + Vec3.grassmann v2 v3 v0 + Vec3.grassmann v1 v0 v3 + Vec3.grassmann v0 v1 v2 ≠ 0 := by
    rw [hd]; exact neg_ne_zero.2 hvol
  have hz : Spec.comb (Vec3.grassmann v3 v2 v1) (Vec3.grassmann v2 v3 v0) (Vec3.grassmann v1 v0 v3) (Vec3.grassmann v0 v1 v2) v0 v1 v2 v3 = .zero := by
    ext <;> simp only [Spec.comb, zeo] <;> ring
  unfold Tetra.closestFromOrigin
  dsimp only
  rw [if_neg hd0]
  clear hd
  generalize Vec3.grassmann v3 v2 v1 = g0 at *
  generalize Vec3.grassmann v2 v3 v0 = g1 at *
  generalize Vec3.grassmann v1 v0 v3 = g2 at *
  generalize Vec3.grassmann v0 v1 v2 = g3 at *
  generalize hm0 : g0 * (1 / (g0 + g1 + g2 + g3)) = m0
  generalize hm1 : g1 * (1 / (g0 + g1 + g2 + g3)) = m1
  generalize hm2 : g2 * (1 / (g0 + g1 + g2 + g3)) = m2
  generalize hm3 : g3 * (1 / (g0 + g1 + g2 + g3)) = m3
  have hms : m0 + m1 + m2 + m3 = 1 := by
    rw [← hm0, ← hm1, ← hm2, ← hm3, ← add_mul, ← add_mul, ← add_mul, mul_one_div, div_self hd0]
  have hmz : Spec.comb m0 m1 m2 m3 v0 v1 v2 v3 = .zero := by
    have e1 := congrArg Vec3.x hz
    have e2 := congrArg Vec3.y hz
    have e3 := congrArg Vec3.z hz
    simp only [Spec.comb, Vec3.zero] at e1 e2 e3
    rw [← hm0, ← hm1, ← hm2, ← hm3]
    ext <;> simp only [Spec.comb, Vec3.zero]
    · linear_combination (1 / (g0 + g1 + g2 + g3)) * e1
    · linear_combination (1 / (g0 + g1 + g2 + g3)) * e2
    · linear_combination (1 / (g0 + g1 + g2 + g3)) * e3
  have b0 : Best v0 v1 v2 v3 ∅ True none := ⟨rfl, trivial⟩
  have b1 := best_step (s := m0) (mk := fun a b c => (0, a, b, c)) hτ hτ' b0 f0 (by
    intro a b c ha hb hc hs
    exact ⟨le_rfl, ha, hb, hc, by simp only; linarith, by ext <;> simp only [Spec.comb] <;> ring⟩)
  have b2 := best_step (s := m1) (mk := fun a b c => (c, 0, a, b)) hτ hτ' b1 f1 (by
    intro a b c ha hb hc hs
    exact ⟨hc, le_rfl, ha, hb, by simp only; linarith, by ext <;> simp only [Spec.comb] <;> ring⟩)
  have b3 := best_step (s := m2) (mk := fun a b c => (b, c, 0, a)) hτ hτ' b2 f2 (by
    intro a b c ha hb hc hs
    exact ⟨hb, hc, le_rfl, ha, by simp only; linarith, by ext <;> simp only [Spec.comb] <;> ring⟩)
  have b4 := best_step (s := m3) (mk := fun a b c => (a, b, c, 0)) hτ hτ' b3 f3 (by
    intro a b c ha hb hc hs
    exact ⟨ha, hb, hc, le_rfl, by simp only; linarith, by ext <;> simp only [Spec.comb] <;> ring⟩)
  generalize Tetra.testTri τ m3 v0 v1 v2 (fun a b c => (a, b, c, 0))
      (Tetra.testTri τ m2 v3 v0 v1 (fun a b c => (b, c, 0, a))
      (Tetra.testTri τ m1 v2 v3 v0 (fun a b c => (c, 0, a, b))
      (Tetra.testTri τ m0 v1 v2 v3 (fun a b c => (0, a, b, c)) none))) = res at b4 ⊢
  cases res with
  | none =>
    obtain ⟨-, ⟨⟨⟨-, n0⟩, n1⟩, n2⟩, n3⟩ := b4
    refine ⟨_, rfl, ⟨⟨m0, m1, m2, m3, n0, n1, n2, n3, hms, hmz.symm⟩, ?_⟩, ?_, n0, n1, n2, n3, hms, hmz.symm⟩
    · intro q _
      have : Spec.sqd (.zero : Vec3 ℝ) .zero = 0 := by simp [Spec.sqd]
      rw [this]; exact sqd_nonneg _ _
    · simp [Spec.ed, Spec.sqd]
  | some r =>
    obtain ⟨⟨hd, h0, h1, h2, h3, hs, hc⟩, hb, hN⟩ := b4
    refine ⟨_, rfl, ⟨⟨_, _, _, _, h0, h1, h2, h3, hs, hc⟩, ?_⟩, hd, h0, h1, h2, h3, hs, hc⟩
    rintro q ⟨a, b, c, d, ha, hb', hc', hd', hs', rfl⟩
    have hneg : ∃ i, (![m0, m1, m2, m3] : Fin 4 → ℝ) i < 0 := by
      by_contra hcon
      push Not at hcon
      exact hN ⟨⟨⟨⟨trivial, hcon 0⟩, hcon 1⟩, hcon 2⟩, hcon 3⟩
    obtain ⟨t, i, ht0, ht1, hmi, hi, hj⟩ := exit_seg ![a, b, c, d] ![m0, m1, m2, m3] (by intro i; fin_cases i <;> assumption) hneg
    have hle : Spec.sqd .zero (Spec.comb (a + t * (m0 - a)) (b + t * (m1 - b)) (c + t * (m2 - c)) (d + t * (m3 - d)) v0 v1 v2 v3)
        ≤ Spec.sqd .zero (Spec.comb a b c d v0 v1 v2 v3) := by
      have e : Spec.comb (a + t * (m0 - a)) (b + t * (m1 - b)) (c + t * (m2 - c)) (d + t * (m3 - d)) v0 v1 v2 v3
          = (Spec.comb a b c d v0 v1 v2 v3).mul (1 - t) := by
        have e1 := congrArg Vec3.x hmz
        have e2 := congrArg Vec3.y hmz
        have e3 := congrArg Vec3.z hmz
        simp only [Spec.comb, Vec3.zero] at e1 e2 e3
        ext <;> simp only [Spec.comb, Vec3.mul]
        · linear_combination t * e1
        · linear_combination t * e2
        · linear_combination t * e3
      rw [e]
      generalize Spec.comb a b c d v0 v1 v2 v3 = q
      have : Spec.sqd .zero (q.mul (1 - t)) = (1 - t)^2 * Spec.sqd .zero q := by simp only [Spec.sqd, zeo]; ring
      rw [this]
      have h01 : (1 - t)^2 ≤ 1 := by nlinarith
      nlinarith [sqd_nonneg .zero q]
    refine le_trans (hb _ ?_) hle
    have hof := on_facet (v0 := v0) (v1 := v1) (v2 := v2) (v3 := v3)
      ![a + t * (m0 - a), b + t * (m1 - b), c + t * (m2 - c), d + t * (m3 - d)]
      (by intro k; fin_cases k; exacts [hj 0, hj 1, hj 2, hj 3])
      (by show a + t * (m0 - a) + (b + t * (m1 - b)) + (c + t * (m2 - c)) + (d + t * (m3 - d)) = 1
          linear_combination (1 - t) * hs' + t * hms)
    obtain ⟨o0, o1, o2, o3⟩ := hof
    fin_cases i
    · exact Or.inl (Or.inl (Or.inl (Or.inr ⟨hmi, o0 hi⟩)))
    · exact Or.inl (Or.inl (Or.inr ⟨hmi, o1 hi⟩))
    · exact Or.inl (Or.inr ⟨hmi, o2 hi⟩)
    · exact Or.inr ⟨hmi, o3 hi⟩

/-- **Main claim**: `zTetra3DClosest` returns the nearest point of the solid tetrahedron, its
distance, and that distance is 0 exactly for the points of the tetrahedron. -/
theorem C21_closest_partial (τ : ℝ) (hτ : 0 ≤ τ) (hτ' : τ ≤ 1/4) (v0 v1 v2 v3 p : Vec3 ℝ)
    (hvol : (v1.sub v0).inner ((v2.sub v0).outer (v3.sub v0)) ≠ 0)
    (f0 : ¬ (Tri3.outerProd v1 v2 v3).isTol τ) (f1 : ¬ (Tri3.outerProd v2 v3 v0).isTol τ)
    (f2 : ¬ (Tri3.outerProd v3 v0 v1).isTol τ) (f3 : ¬ (Tri3.outerProd v0 v1 v2).isTol τ) :
    ∃ r, Tetra.closest τ v0 v1 v2 v3 p = some r ∧
      Spec.IsNearest (Spec.tetra v0 v1 v2 v3) p r.2 ∧ r.1 = Spec.ed p r.2 ∧
      (r.1 = 0 ↔ p ∈ Spec.tetra v0 v1 v2 v3) := by
  have ho : ∀ a b c : Vec3 ℝ, Tri3.outerProd (a.sub p) (b.sub p) (c.sub p) = Tri3.outerProd a b c := by
    intro a b c; ext <;> simp only [Tri3.outerProd, zeo] <;> ring
  have hss : ∀ a b : Vec3 ℝ, (a.sub p).sub (b.sub p) = a.sub b := by intro a b; vring
  obtain ⟨r, hr, hn, hd, -⟩ := C21_fromOrigin τ hτ hτ' (v0.sub p) (v1.sub p) (v2.sub p) (v3.sub p)
    (by rw [hss, hss, hss]; exact hvol) (by rw [ho]; exact f0) (by rw [ho]; exact f1) (by rw [ho]; exact f2) (by rw [ho]; exact f3)
  have hne := isNearest_translate p r.cp (mem_tetra_sub v0 v1 v2 v3 p) hn
  have hde : r.dist = Spec.ed p (r.cp.add p) := by rw [hd, ← norm_eq_ed_zero, norm_eq_ed p]
  refine ⟨_, by rw [Tetra.closest, hr]; rfl, hne, hde, ?_⟩
  show r.dist = 0 ↔ _
  rw [hde]
  constructor
  · intro h0
    have h1 := (Real.sqrt_eq_zero (sqd_nonneg p (r.cp.add p))).1 h0
    have : p = r.cp.add p := by
      generalize r.cp.add p = q at h1
      unfold Spec.sqd at h1
      ext
      · nlinarith [sq_nonneg (p.x - q.x), sq_nonneg (p.y - q.y), sq_nonneg (p.z - q.z)]
      · nlinarith [sq_nonneg (p.x - q.x), sq_nonneg (p.y - q.y), sq_nonneg (p.z - q.z)]
      · nlinarith [sq_nonneg (p.x - q.x), sq_nonneg (p.y - q.y), sq_nonneg (p.z - q.z)]
    rw [this]; exact hne.1
  · intro hp
    have h1 := hne.2 p hp
    have h2 : Spec.sqd p p = 0 := by simp [Spec.sqd]
    rw [h2] at h1
    rw [Spec.ed, le_antisymm h1 (sqd_nonneg _ _), Real.sqrt_zero]

/-- Coplanar vertices divide by zero. -/
theorem C21_degenerate (τ : ℝ) (v0 v1 v2 v3 p : Vec3 ℝ)
    (hvol : (v1.sub v0).inner ((v2.sub v0).outer (v3.sub v0)) = 0) : Tetra.closest τ v0 v1 v2 v3 p = none := by
  have : Tetra.closestFromOrigin τ (v0.sub p) (v1.sub p) (v2.sub p) (v3.sub p) = none := by
    unfold Tetra.closestFromOrigin
    dsimp only
    rw [if_pos]
    simp only [zeo] at hvol ⊢
    linear_combination -hvol
  rw [Tetra.closest, this]; rfl

/-! ## The triangle in the plane -/

private def Best2 (v0 v1 v2 : Vec2 ℝ) (S : Set (Vec2 ℝ)) (none_ : Prop) : Option TriRes2 → Prop
  | none => S = ∅ ∧ none_
  | some r => (r.dist = Spec.ed2 .zero r.cp ∧ 0 ≤ r.s0 ∧ 0 ≤ r.s1 ∧ 0 ≤ r.s2 ∧ r.s0 + r.s1 + r.s2 = 1 ∧
      r.cp = Spec.comb2 r.s0 r.s1 r.s2 v0 v1 v2) ∧ (∀ q ∈ S, Spec.sqd2 .zero r.cp ≤ Spec.sqd2 .zero q) ∧ ¬ none_

private theorem best2_step {s : ℝ} {v0 v1 v2 va vb : Vec2 ℝ} {S : Set (Vec2 ℝ)} {N : Prop} {best : Option TriRes2}
    {mk : ℝ → ℝ → ℝ × ℝ × ℝ} (hb : Best2 v0 v1 v2 S N best) (hne : va ≠ vb)
    (hmk : ∀ a b, 0 ≤ a → 0 ≤ b → a + b = 1 → 0 ≤ (mk a b).1 ∧ 0 ≤ (mk a b).2.1 ∧ 0 ≤ (mk a b).2.2 ∧
      (mk a b).1 + (mk a b).2.1 + (mk a b).2.2 = 1 ∧
      Spec.comb2 a b 0 va vb va = Spec.comb2 (mk a b).1 (mk a b).2.1 (mk a b).2.2 v0 v1 v2) :
    Best2 v0 v1 v2 (S ∪ {q | s < 0 ∧ q ∈ Spec.segment2 va vb}) (N ∧ 0 ≤ s) (Tri2.testEdge s va vb mk best) := by
  by_cases hs0 : s < 0
  · obtain ⟨r, hr, ⟨hm, hn⟩, hd, h0, h1, hs, hc⟩ := C19_fromOrigin2 va vb hne
    obtain ⟨m0, m1, m2, ms, mc⟩ := hmk r.s0 r.s1 h0 h1 hs
    rw [Tri2.testEdge, if_pos hs0, hr]
    dsimp only
    cases best with
    | none =>
      rw [if_pos (by trivial)]
      refine ⟨⟨norm_eq_ed2_zero _, m0, m1, m2, ms, hc.trans mc⟩, ?_, fun h => absurd h.2 (not_le.2 hs0)⟩
      have hS : S = ∅ := hb.1
      rintro q (hq | ⟨-, hq⟩)
      · rw [hS] at hq; exact hq.elim
      · exact hn q hq
    | some b =>
      obtain ⟨hv, hb, hN⟩ := hb
      by_cases hlt : r.dist < b.dist
      · rw [if_pos (by exact hlt)]
        refine ⟨⟨norm_eq_ed2_zero _, m0, m1, m2, ms, hc.trans mc⟩, ?_, fun h => hN h.1⟩
        rw [hd, hv.1, ed2_lt_iff] at hlt
        rintro q (hq | ⟨-, hq⟩)
        · exact hlt.le.trans (hb q hq)
        · exact hn q hq
      · rw [if_neg (by exact hlt)]
        refine ⟨hv, ?_, fun h => hN h.1⟩
        rw [hd, hv.1, ed2_lt_iff, not_lt] at hlt
        rintro q (hq | ⟨-, hq⟩)
        · exact hb q hq
        · exact hlt.trans (hn q hq)
  · have : S ∪ {q | s < 0 ∧ q ∈ Spec.segment2 va vb} = S := by ext q; simp [hs0]
    rw [this, Tri2.testEdge, if_neg hs0]
    cases best with
    | none => exact ⟨hb.1, hb.2, not_lt.1 hs0⟩
    | some b => exact ⟨hb.1, hb.2.1, fun h => hb.2.2 h.1⟩

/-- **Triangle in the plane, from the origin**: for every triangle of non-zero area the result is the
nearest point of the filled triangle, with valid barycentric weights. -/
theorem C21_tri2_fromOrigin (v0 v1 v2 : Vec2 ℝ) (harea : (v1.sub v0).outer (v2.sub v0) ≠ 0) :
    ∃ r, Tri2.closestFromOrigin v0 v1 v2 = some r ∧
      Spec.IsNearest2 (Spec.triangle2 v0 v1 v2) .zero r.cp ∧ r.dist = Spec.ed2 .zero r.cp ∧
      0 ≤ r.s0 ∧ 0 ≤ r.s1 ∧ 0 ≤ r.s2 ∧ r.s0 + r.s1 + r.s2 = 1 ∧
      r.cp = Spec.comb2 r.s0 r.s1 r.s2 v0 v1 v2 := by
  have hd : v1.outer v2 + v2.outer v0 + v0.outer v1 = (v1.sub v0).outer (v2.sub v0) := by simp only [zeo]; ring
  have hd0 : v1.outer v2 + v2.outer v0 + v0.outer v1 ≠ 0 := by rw [hd]; exact harea
  have n01 : v0 ≠ v1 := by rintro rfl; apply harea; simp only [zeo]; ring
  have n12 : v1 ≠ v2 := by rintro rfl; apply harea; simp only [zeo]; ring
  have n20 : v2 ≠ v0 := by rintro rfl; apply harea; simp only [zeo]; ring
  have hz : Spec.comb2 (v1.outer v2) (v2.outer v0) (v0.outer v1) v0 v1 v2 = .zero := by
    ext <;> simp only [Spec.comb2, zeo] <;> ring
  unfold Tri2.closestFromOrigin
  dsimp only
  rw [if_neg hd0]
  clear hd harea
  generalize v1.outer v2 = g0 at *
  generalize v2.outer v0 = g1 at *
  generalize v0.outer v1 = g2 at *
  generalize hm0 : g0 * (1 / (g0 + g1 + g2)) = m0
  generalize hm1 : g1 * (1 / (g0 + g1 + g2)) = m1
  generalize hm2 : g2 * (1 / (g0 + g1 + g2)) = m2
  have hms : m0 + m1 + m2 = 1 := by
    rw [← hm0, ← hm1, ← hm2, ← add_mul, ← add_mul, mul_one_div, div_self hd0]
  have hmz : Spec.comb2 m0 m1 m2 v0 v1 v2 = .zero := by
    have e1 := congrArg Vec2.x hz
    have e2 := congrArg Vec2.y hz
    simp only [Spec.comb2, Vec2.zero] at e1 e2
    rw [← hm0, ← hm1, ← hm2]
    ext <;> simp only [Spec.comb2, Vec2.zero]
    · linear_combination (1 / (g0 + g1 + g2)) * e1
    · linear_combination (1 / (g0 + g1 + g2)) * e2
  have b0 : Best2 v0 v1 v2 ∅ True none := ⟨rfl, trivial⟩
  have b1 := best2_step (s := m0) (mk := fun a b => (0, a, b)) b0 n12 (by
    intro a b ha hb hs
    exact ⟨le_rfl, ha, hb, by simp only; linarith, by ext <;> simp only [Spec.comb2] <;> ring⟩)
  have b2 := best2_step (s := m1) (mk := fun a b => (b, 0, a)) b1 n20 (by
    intro a b ha hb hs
    exact ⟨hb, le_rfl, ha, by simp only; linarith, by ext <;> simp only [Spec.comb2] <;> ring⟩)
  have b3 := best2_step (s := m2) (mk := fun a b => (a, b, 0)) b2 n01 (by
    intro a b ha hb hs
    exact ⟨ha, hb, le_rfl, by simp only; linarith, by ext <;> simp only [Spec.comb2] <;> ring⟩)
  generalize Tri2.testEdge m2 v0 v1 (fun a b => (a, b, 0))
      (Tri2.testEdge m1 v2 v0 (fun a b => (b, 0, a)) (Tri2.testEdge m0 v1 v2 (fun a b => (0, a, b)) none)) = res at b3 ⊢
  cases res with
  | none =>
    obtain ⟨-, ⟨⟨-, n0⟩, n1⟩, n2⟩ := b3
    refine ⟨_, rfl, ⟨⟨m0, m1, m2, n0, n1, n2, hms, hmz.symm⟩, ?_⟩, ?_, n0, n1, n2, hms, hmz.symm⟩
    · intro q _
      have : Spec.sqd2 (.zero : Vec2 ℝ) .zero = 0 := by simp [Spec.sqd2]
      rw [this]; exact sqd2_nonneg _ _
    · simp [Spec.ed2, Spec.sqd2]
  | some r =>
    obtain ⟨⟨hd, h0, h1, h2, hs, hc⟩, hb, hN⟩ := b3
    refine ⟨_, rfl, ⟨⟨_, _, _, h0, h1, h2, hs, hc⟩, ?_⟩, hd, h0, h1, h2, hs, hc⟩
    rintro q ⟨a, b, c, ha, hb', hc', hs', rfl⟩
    have hneg : ∃ i, (![m0, m1, m2] : Fin 3 → ℝ) i < 0 := by
      by_contra hcon
      push Not at hcon
      exact hN ⟨⟨⟨trivial, hcon 0⟩, hcon 1⟩, hcon 2⟩
    obtain ⟨t, i, ht0, ht1, hmi, hi, hj⟩ := exit_seg ![a, b, c] ![m0, m1, m2] (by intro i; fin_cases i <;> assumption) hneg
    have j0 : 0 ≤ a + t * (m0 - a) := hj 0
    have j1 : 0 ≤ b + t * (m1 - b) := hj 1
    have j2 : 0 ≤ c + t * (m2 - c) := hj 2
    have hsum : (a + t * (m0 - a)) + (b + t * (m1 - b)) + (c + t * (m2 - c)) = 1 := by
      linear_combination (1 - t) * hs' + t * hms
    have hle : Spec.sqd2 .zero (Spec.comb2 (a + t * (m0 - a)) (b + t * (m1 - b)) (c + t * (m2 - c)) v0 v1 v2)
        ≤ Spec.sqd2 .zero (Spec.comb2 a b c v0 v1 v2) := by
      have e : Spec.comb2 (a + t * (m0 - a)) (b + t * (m1 - b)) (c + t * (m2 - c)) v0 v1 v2
          = (Spec.comb2 a b c v0 v1 v2).mul (1 - t) := by
        have e1 := congrArg Vec2.x hmz
        have e2 := congrArg Vec2.y hmz
        simp only [Spec.comb2, Vec2.zero] at e1 e2
        ext <;> simp only [Spec.comb2, Vec2.mul]
        · linear_combination t * e1
        · linear_combination t * e2
      rw [e]
      generalize Spec.comb2 a b c v0 v1 v2 = q
      have : Spec.sqd2 .zero (q.mul (1 - t)) = (1 - t)^2 * Spec.sqd2 .zero q := by simp only [Spec.sqd2, zeo]; ring
      rw [this]
      have h01 : (1 - t)^2 ≤ 1 := by nlinarith
      nlinarith [sqd2_nonneg .zero q]
    refine le_trans (hb _ ?_) hle
    fin_cases i
    · have hi : a + t * (m0 - a) = 0 := hi
      rw [hi] at hsum ⊢
      exact Or.inl (Or.inl (Or.inr ⟨hmi, _, _, j1, j2, by linarith, by ext <;> simp only [Spec.comb2] <;> ring⟩))
    · have hi : b + t * (m1 - b) = 0 := hi
      rw [hi] at hsum ⊢
      exact Or.inl (Or.inr ⟨hmi, _, _, j2, j0, by linarith, by ext <;> simp only [Spec.comb2] <;> ring⟩)
    · have hi : c + t * (m2 - c) = 0 := hi
      rw [hi] at hsum ⊢
      exact Or.inr ⟨hmi, _, _, j0, j1, by linarith, by ext <;> simp only [Spec.comb2] <;> ring⟩

/-- `zTri2DClosest` for every query point. -/
theorem C21_tri2_closest (v0 v1 v2 p : Vec2 ℝ) (harea : (v1.sub v0).outer (v2.sub v0) ≠ 0) :
    ∃ r, Tri2.closest v0 v1 v2 p = some r ∧
      Spec.IsNearest2 (Spec.triangle2 v0 v1 v2) p r.2 ∧ r.1 = Spec.ed2 p r.2 := by
  have hss : ∀ a b : Vec2 ℝ, (a.sub p).sub (b.sub p) = a.sub b := by intro a b; vring
  obtain ⟨r, hr, hn, hd, -⟩ := C21_tri2_fromOrigin (v0.sub p) (v1.sub p) (v2.sub p) (by rw [hss, hss]; exact harea)
  refine ⟨_, by rw [Tri2.closest, hr]; rfl, isNearest2_translate p r.cp (mem_triangle2_sub v0 v1 v2 p) hn, ?_⟩
  show r.dist = Spec.ed2 p (r.cp.add p)
  rw [hd, ← norm_eq_ed2_zero, norm_eq_ed2 p]

/-- Satisfiability: the corner tetrahedron, at the largest admitted tolerance. -/
example : let o : Vec3 ℝ := ⟨0, 0, 0⟩; let x : Vec3 ℝ := ⟨1, 0, 0⟩; let y : Vec3 ℝ := ⟨0, 1, 0⟩; let z : Vec3 ℝ := ⟨0, 0, 1⟩
    (x.sub o).inner ((y.sub o).outer (z.sub o)) ≠ 0 ∧ ¬ (Tri3.outerProd x y z).isTol (1/4) ∧ ¬ (Tri3.outerProd y z o).isTol (1/4) ∧
    ¬ (Tri3.outerProd z o x).isTol (1/4) ∧ ¬ (Tri3.outerProd o x y).isTol (1/4) := by
  simp only [Tri3.outerProd, zeo, Vec3.isTol, zIsTol]; norm_num
/-- Satisfiability: a triangle in the plane. -/
example : ((⟨1, 0⟩ : Vec2 ℝ).sub ⟨0, 0⟩).outer ((⟨0, 1⟩ : Vec2 ℝ).sub ⟨0, 0⟩) ≠ 0 := by
  simp only [zeo]; norm_num

end Zeo

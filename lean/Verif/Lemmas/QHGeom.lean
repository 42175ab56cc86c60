import Verif.Spec.Hull
import Verif.Spec.BRep
import Mathlib.Analysis.LocallyConvex.Separation
import Mathlib.Analysis.Convex.Topology
import Mathlib.Analysis.InnerProductSpace.PiL2

/-! # Geometry behind the quickhull algorithm -/

namespace Zeo.QHGeom
noncomputable section
open Spec

/-- Six times the signed volume of a tetrahedron: positive when `x` lies beyond the oriented triangle. -/
def vol (a b c x : Vec3 ℝ) : ℝ := dot (triNormal (a, b, c)) (x.sub a)

theorem vol_eq (a b c x : Vec3 ℝ) : vol a b c x =
    ((b.y - a.y) * (c.z - a.z) - (b.z - a.z) * (c.y - a.y)) * (x.x - a.x) +
    ((b.z - a.z) * (c.x - a.x) - (b.x - a.x) * (c.z - a.z)) * (x.y - a.y) +
    ((b.x - a.x) * (c.y - a.y) - (b.y - a.y) * (c.x - a.x)) * (x.z - a.z) := rfl

theorem vol_cyc (a b c x : Vec3 ℝ) : vol b c a x = vol a b c x := by simp only [vol_eq]; ring
theorem vol_swap (a b c x : Vec3 ℝ) : vol b a c x = - vol a b c x := by simp only [vol_eq]; ring
theorem vol_swap34 (a b c x : Vec3 ℝ) : vol a b x c = - vol a b c x := by simp only [vol_eq]; ring
theorem vol_swap14 (a b c x : Vec3 ℝ) : vol x b c a = - vol a b c x := by simp only [vol_eq]; ring
theorem vol_self1 (a b c : Vec3 ℝ) : vol a b c a = 0 := by simp only [vol_eq]; ring
theorem vol_self2 (a b c : Vec3 ℝ) : vol a b c b = 0 := by simp only [vol_eq]; ring
theorem vol_self3 (a b c : Vec3 ℝ) : vol a b c c = 0 := by simp only [vol_eq]; ring

/-- The plane through an edge common to two triangles and a point is a combination of their planes. -/
theorem vol_pencil (z y a b p x : Vec3 ℝ) :
    vol z a b p * vol y b a x - vol y b a p * vol z a b x = - vol z a b y * vol p a b x := by
  simp only [vol_eq]; ring

/-- A point beneath two adjacent triangles is beneath the triangle that joins their edge to a point beyond the
one and beneath the other. -/
theorem vol_cone {z y a b p x : Vec3 ℝ} (hy : vol z a b y < 0) (hp : 0 < vol z a b p) (hp' : vol y b a p < 0)
    (hx : vol z a b x ≤ 0) (hx' : vol y b a x ≤ 0) (hne : vol z a b x < 0 ∨ vol y b a x < 0) :
    vol p a b x < 0 := by
  have h := vol_pencil z y a b p x
  have : vol z a b p * vol y b a x - vol y b a p * vol z a b x < 0 := by
    rcases hne with h | h
    · nlinarith [mul_pos_of_neg_of_neg hp' h, mul_nonneg hp.le (neg_nonneg.2 hx')]
    · nlinarith [mul_pos hp (neg_pos.2 h), mul_nonneg_of_nonpos_of_nonpos hp'.le hx]
  rw [h] at this
  by_contra hc
  push Not at hc
  nlinarith [mul_nonneg (neg_nonneg.2 hy.le) hc]

theorem vol_cone_le {z y a b p x : Vec3 ℝ} (hy : vol z a b y < 0) (hp : 0 < vol z a b p) (hp' : vol y b a p < 0)
    (hx : vol z a b x ≤ 0) (hx' : vol y b a x ≤ 0) : vol p a b x ≤ 0 := by
  have h := vol_pencil z y a b p x
  have : vol z a b p * vol y b a x - vol y b a p * vol z a b x ≤ 0 := by
    nlinarith [mul_nonneg hp.le (neg_nonneg.2 hx'), mul_nonneg_of_nonpos_of_nonpos hp'.le hx]
  rw [h] at this
  by_contra hc
  push Not at hc
  nlinarith [mul_pos (neg_pos.2 hy) hc]

/-- The same when the point may lie in the plane of the one triangle, with a point beneath both. -/
theorem vol_cone_inner {z y a b p k : Vec3 ℝ} (hy : vol z a b y ≤ 0) (hp : 0 ≤ vol z a b p) (hp' : vol y b a p < 0)
    (hk : vol z a b k < 0) (hk' : vol y b a k < 0) : vol z a b y < 0 ∧ vol p a b k < 0 := by
  have h := vol_pencil z y a b p k
  have : vol z a b p * vol y b a k - vol y b a p * vol z a b k < 0 := by
    nlinarith [mul_pos_of_neg_of_neg hp' hk, mul_nonneg hp (neg_nonneg.2 hk'.le)]
  rw [h] at this
  have hy' : vol z a b y < 0 := by
    rcases hy.lt_or_eq with h' | h'
    · exact h'
    · rw [h'] at this; simp at this
  refine ⟨hy', ?_⟩
  by_contra hc
  push Not at hc
  nlinarith [mul_nonneg (neg_nonneg.2 hy'.le) hc]

theorem vol_cone_weak {z y a b p x : Vec3 ℝ} (hy : vol z a b y < 0) (hp : 0 ≤ vol z a b p) (hp' : vol y b a p < 0)
    (hx : vol z a b x ≤ 0) (hx' : vol y b a x ≤ 0) : vol p a b x ≤ 0 := by
  have h := vol_pencil z y a b p x
  have : vol z a b p * vol y b a x - vol y b a p * vol z a b x ≤ 0 := by
    nlinarith [mul_nonneg hp (neg_nonneg.2 hx'), mul_nonneg_of_nonpos_of_nonpos hp'.le hx]
  rw [h] at this
  by_contra hc
  push Not at hc
  nlinarith [mul_pos (neg_pos.2 hy) hc]

/-- A linear function that vanishes along the line from `v` to `p` cannot be negative at all the points of a
closed chain that turns around this line in one sense. -/
theorem no_cycle {v p w : Vec3 ℝ} (hw : dot w (p.sub v) = 0) (a : ℕ → Vec3 ℝ) (m : ℕ) (hm : 0 < m) (hc : a m = a 0)
    (ha : ∀ k ≤ m, dot w ((a k).sub v) < 0) (hs : ∀ k < m, vol v p (a k) (a (k + 1)) < 0) : False := by
  set M : Vec3 ℝ → ℝ := fun x => dot ((p.sub v).outer w) (x.sub v) with hM
  set L : Vec3 ℝ → ℝ := fun x => dot w (x.sub v) with hL
  have hww : 0 < dot w w := by
    have h0 := ha 0 (Nat.zero_le _)
    by_contra hcon
    have hz : w.x = 0 ∧ w.y = 0 ∧ w.z = 0 := by
      simp only [dot] at hcon
      refine ⟨?_, ?_, ?_⟩ <;> nlinarith [mul_self_nonneg w.x, mul_self_nonneg w.y, mul_self_nonneg w.z]
    simp only [dot, hz.1, hz.2.1, hz.2.2] at h0
    simp at h0
  have key : ∀ x y : Vec3 ℝ, M x * L y - M y * L x = - dot w w * vol v p x y := by
    intro x y
    simp only [hM, hL, vol_eq, dot, Vec3.sub, Vec3.outer] at hw ⊢
    linear_combination (w.x * ((x.y - v.y) * (y.z - v.z) - (x.z - v.z) * (y.y - v.y)) +
      w.y * ((x.z - v.z) * (y.x - v.x) - (x.x - v.x) * (y.z - v.z)) +
      w.z * ((x.x - v.x) * (y.y - v.y) - (x.y - v.y) * (y.x - v.x))) * hw
  have step : ∀ k < m, M (a (k + 1)) / L (a (k + 1)) < M (a k) / L (a k) := by
    intro k hk
    have h1 : L (a k) < 0 := ha k hk.le
    have h2 : L (a (k + 1)) < 0 := ha (k + 1) hk
    have h3 := key (a k) (a (k + 1))
    have h4 : 0 < M (a k) * L (a (k + 1)) - M (a (k + 1)) * L (a k) := by
      rw [h3]; nlinarith [mul_pos hww (neg_pos.2 (hs k hk))]
    have h5 : M (a k) / L (a k) - M (a (k + 1)) / L (a (k + 1)) =
        (M (a k) * L (a (k + 1)) - M (a (k + 1)) * L (a k)) / (L (a k) * L (a (k + 1))) := by
      rw [div_sub_div _ _ h1.ne h2.ne, mul_comm (L (a k)) (M (a (k + 1)))]
    have : 0 < M (a k) / L (a k) - M (a (k + 1)) / L (a (k + 1)) := by
      rw [h5]; exact div_pos h4 (mul_pos_of_neg_of_neg h1 h2)
    linarith
  have mono : ∀ k, 0 < k → k ≤ m → M (a k) / L (a k) < M (a 0) / L (a 0) := by
    intro k hk
    induction k with
    | zero => omega
    | succ k ih =>
      intro hkm
      rcases Nat.eq_zero_or_pos k with h0 | h0
      · subst h0; exact step 0 (by omega)
      · exact (step k (by omega)).trans (ih h0 (by omega))
  have := mono m hm le_rfl
  rw [hc] at this
  exact lt_irrefl _ this

/-- A point that is no convex combination of finitely many points is separated from them. -/
theorem separate {S : Set (Vec3 ℝ)} (hS : S.Finite) {q : Vec3 ℝ} (hq : ¬ InHull S q) :
    ∃ d : Vec3 ℝ, ∀ v ∈ S, dot d (v.sub q) < 0 := by
  classical
  set e : Vec3 ℝ → (Fin 3 → ℝ) := fun v => ![v.x, v.y, v.z] with he
  have hfin : (e '' S).Finite := hS.image _
  have hcl : IsClosed (convexHull ℝ (e '' S)) := hfin.isClosed_convexHull ℝ
  have hnot : e q ∉ convexHull ℝ (e '' S) := by
    intro hmem
    rw [mem_convexHull_iff_exists_fintype] at hmem
    obtain ⟨ι, _, w, z, hw0, hw1, hz, hsum⟩ := hmem
    apply hq
    choose y hyS hye using fun i => hz i
    set eq := Fintype.equivFin ι
    refine ⟨Fintype.card ι, w ∘ eq.symm, y ∘ eq.symm, fun i => hyS _, fun i => hw0 _, ?_, ?_⟩
    · rw [← hw1]; exact Equiv.sum_comp eq.symm w
    · have hk : ∀ k : Fin 3, ∑ i, w i * z i k = e q k := by
        intro k
        rw [← hsum]; simp [Finset.sum_apply]
      have hs : ∀ g : ι → ℝ, ∑ i, g (eq.symm i) = ∑ i, g i := fun g => Equiv.sum_comp eq.symm g
      ext
      · have := hk 0
        simp only [Function.comp]
        rw [hs (fun i => w i * (y i).x)]
        simp only [← hye, he] at this
        simpa using this.symm
      · have := hk 1
        simp only [Function.comp]
        rw [hs (fun i => w i * (y i).y)]
        simp only [← hye, he] at this
        simpa using this.symm
      · have := hk 2
        simp only [Function.comp]
        rw [hs (fun i => w i * (y i).z)]
        simp only [← hye, he] at this
        simpa using this.symm
  obtain ⟨f, u, h1, h2⟩ := geometric_hahn_banach_closed_point (convex_convexHull ℝ _) hcl hnot
  have hf : ∀ v : Vec3 ℝ, f (e v) = dot ⟨f ![1, 0, 0], f ![0, 1, 0], f ![0, 0, 1]⟩ v := by
    intro v
    have : e v = v.x • ![1, 0, 0] + v.y • ![0, 1, 0] + v.z • ![0, 0, 1] := by
      ext k; fin_cases k <;> simp [he]
    rw [this]
    simp only [map_add, map_smul, smul_eq_mul, dot]
    ring
  refine ⟨⟨f ![1, 0, 0], f ![0, 1, 0], f ![0, 0, 1]⟩, fun v hv => ?_⟩
  have ha := h1 (e v) (subset_convexHull ℝ _ ⟨v, hv, rfl⟩)
  have hb := ha.trans h2
  rw [hf, hf] at hb
  simp only [dot, Vec3.sub] at hb ⊢
  linarith

/-- Projecting from `q`: the three edge terms of a triangle make up its volume term. -/
theorem vol_edges (d q a b c : Vec3 ℝ) :
    dot d (c.sub q) * dot d ((a.sub q).outer (b.sub q)) + dot d (a.sub q) * dot d ((b.sub q).outer (c.sub q)) +
      dot d (b.sub q) * dot d ((c.sub q).outer (a.sub q)) = - dot d d * vol a b c q := by
  simp only [vol_eq, dot, Vec3.sub, Vec3.outer]; ring

/-- Edge term of the projection from `q` along `d`. -/
def edgeTerm (d q a b : Vec3 ℝ) : ℝ := dot d ((a.sub q).outer (b.sub q)) / (dot d (a.sub q) * dot d (b.sub q))

theorem edgeTerm_swap (d q a b : Vec3 ℝ) : edgeTerm d q b a = - edgeTerm d q a b := by
  unfold edgeTerm
  rw [mul_comm (dot d (b.sub q)), ← neg_div]
  congr 1
  simp only [dot, Vec3.sub, Vec3.outer]; ring

theorem edgeTerm_sum {d q a b c : Vec3 ℝ} (ha : dot d (a.sub q) < 0) (hb : dot d (b.sub q) < 0)
    (hc : dot d (c.sub q) < 0) : edgeTerm d q a b + edgeTerm d q b c + edgeTerm d q c a =
      - dot d d * vol a b c q / (dot d (a.sub q) * dot d (b.sub q) * dot d (c.sub q)) := by
  rw [← vol_edges]
  unfold edgeTerm
  have := ha.ne; have := hb.ne; have := hc.ne
  field_simp

/-- In a closed mesh an antisymmetric function of the edges adds up to zero. -/
theorem sum_edges {F : Finset ℕ} {p : ℕ → Fin 3 → ℕ}
    (hadj : ∀ f ∈ F, ∀ s, ∃ g ∈ F, ∃ t, p g (t + 1) = p f (s + 2) ∧ p g (t + 2) = p f (s + 1))
    (huni : ∀ f ∈ F, ∀ g ∈ F, ∀ s t, p f (s + 1) = p g (t + 1) → p f (s + 2) = p g (t + 2) → f = g ∧ s = t)
    (φ : ℕ → ℕ → ℝ) (hφ : ∀ a b, φ b a = - φ a b) :
    ∑ f ∈ F, ∑ s, φ (p f (s + 1)) (p f (s + 2)) = 0 := by
  classical
  set edge : ℕ × Fin 3 → ℕ × ℕ := fun r => (p r.1 (r.2 + 1), p r.1 (r.2 + 2)) with hedge
  set E := (F ×ˢ (Finset.univ : Finset (Fin 3))).image edge with hE
  have hinj : Set.InjOn edge (F ×ˢ (Finset.univ : Finset (Fin 3)) : Finset (ℕ × Fin 3)) := by
    rintro ⟨f, s⟩ hf ⟨g, t⟩ hg h
    simp only [Finset.coe_product, Set.mem_prod, Finset.mem_coe] at hf hg
    simp only [hedge, Prod.mk.injEq] at h
    obtain ⟨h1, h2⟩ := huni f hf.1 g hg.1 s t h.1 h.2
    rw [h1, h2]
  have h1 : ∑ f ∈ F, ∑ s, φ (p f (s + 1)) (p f (s + 2)) = ∑ e ∈ E, φ e.1 e.2 := by
    rw [hE, Finset.sum_image hinj, Finset.sum_product]
  have hsw : E.image Prod.swap = E := by
    have hsub : ∀ e ∈ E, Prod.swap e ∈ E := by
      intro e he
      rw [hE, Finset.mem_image] at he
      obtain ⟨⟨f, s⟩, hf, rfl⟩ := he
      rw [Finset.mem_product] at hf
      obtain ⟨g, hg, t, ht1, ht2⟩ := hadj f hf.1 s
      rw [hE, Finset.mem_image]
      exact ⟨(g, t), Finset.mem_product.2 ⟨hg, Finset.mem_univ _⟩, by simp [hedge, ht1, ht2]⟩
    ext e
    constructor
    · intro he
      rw [Finset.mem_image] at he
      obtain ⟨e', he', rfl⟩ := he
      exact hsub e' he'
    · intro he
      rw [Finset.mem_image]
      exact ⟨e.swap, hsub e he, Prod.swap_swap e⟩
  have h2 : ∑ e ∈ E, φ e.1 e.2 = ∑ e ∈ E, φ e.2 e.1 := by
    conv_lhs => rw [← hsw]
    rw [Finset.sum_image (fun a _ b _ h => Prod.swap_injective h)]
    rfl
  have h3 : ∑ e ∈ E, φ e.2 e.1 = - ∑ e ∈ E, φ e.1 e.2 := by
    rw [← Finset.sum_neg_distrib]
    exact Finset.sum_congr rfl fun e _ => hφ _ _
  rw [h1]; linarith

/-- A point strictly on the same side of all the triangles of a closed mesh is a convex combination of the
corners. -/
theorem closed_hull {F : Finset ℕ} {p : ℕ → Fin 3 → ℕ} (pos : ℕ → Vec3 ℝ) (hne : F.Nonempty)
    (hadj : ∀ f ∈ F, ∀ s, ∃ g ∈ F, ∃ t, p g (t + 1) = p f (s + 2) ∧ p g (t + 2) = p f (s + 1))
    (huni : ∀ f ∈ F, ∀ g ∈ F, ∀ s t, p f (s + 1) = p g (t + 1) → p f (s + 2) = p g (t + 2) → f = g ∧ s = t)
    {q : Vec3 ℝ} {ε : ℝ} (h : ∀ f ∈ F, 0 < ε * vol (pos (p f 0)) (pos (p f 1)) (pos (p f 2)) q) :
    InHull {v | ∃ f ∈ F, ∃ s, v = pos (p f s)} q := by
  classical
  by_contra hcon
  have hfin : {v | ∃ f ∈ F, ∃ s, v = pos (p f s)}.Finite := by
    have : {v | ∃ f ∈ F, ∃ s, v = pos (p f s)} =
        (fun r : ℕ × Fin 3 => pos (p r.1 r.2)) '' (F ×ˢ (Finset.univ : Finset (Fin 3)) : Finset (ℕ × Fin 3)) := by
      ext v
      simp only [Set.mem_setOf_eq, Set.mem_image, Finset.coe_product, Set.mem_prod, Finset.mem_coe, Prod.exists]
      constructor
      · rintro ⟨f, hf, s, rfl⟩; exact ⟨f, s, ⟨hf, Finset.mem_univ _⟩, rfl⟩
      · rintro ⟨f, s, ⟨hf, -⟩, rfl⟩; exact ⟨f, hf, s, rfl⟩
    rw [this]
    exact (Finset.finite_toSet _).image _
  obtain ⟨d, hd⟩ := separate hfin hcon
  have hd' : ∀ f ∈ F, ∀ s, dot d ((pos (p f s)).sub q) < 0 := fun f hf s => hd _ ⟨f, hf, s, rfl⟩
  have hsum := sum_edges hadj huni (fun a b => edgeTerm d q (pos a) (pos b)) fun a b => edgeTerm_swap d q _ _
  obtain ⟨f0, hf0⟩ := hne
  have hdd : 0 < dot d d := by
    have h0 := hd' f0 hf0 0
    by_contra hc
    have hz : d.x = 0 ∧ d.y = 0 ∧ d.z = 0 := by
      simp only [dot] at hc
      refine ⟨?_, ?_, ?_⟩ <;> nlinarith [mul_self_nonneg d.x, mul_self_nonneg d.y, mul_self_nonneg d.z]
    simp only [dot, hz.1, hz.2.1, hz.2.2] at h0
    simp at h0
  have hpos : ∀ f ∈ F, 0 < ε * ∑ s, edgeTerm d q (pos (p f (s + 1))) (pos (p f (s + 2))) := by
    intro f hf
    have h0 := hd' f hf 0
    have h1 := hd' f hf 1
    have h2 := hd' f hf 2
    have e : ∑ s, edgeTerm d q (pos (p f (s + 1))) (pos (p f (s + 2))) =
        edgeTerm d q (pos (p f 0)) (pos (p f 1)) + edgeTerm d q (pos (p f 1)) (pos (p f 2)) +
          edgeTerm d q (pos (p f 2)) (pos (p f 0)) := by
      rw [Fin.sum_univ_three]
      simp only [zero_add, show (1 + 1 : Fin 3) = 2 from rfl, show (1 + 2 : Fin 3) = 0 from rfl,
        show (2 + 1 : Fin 3) = 0 from rfl, show (2 + 2 : Fin 3) = 1 from rfl]
      ring
    rw [e, edgeTerm_sum h0 h1 h2]
    have hden : dot d ((pos (p f 0)).sub q) * dot d ((pos (p f 1)).sub q) * dot d ((pos (p f 2)).sub q) < 0 :=
      mul_neg_of_pos_of_neg (mul_pos_of_neg_of_neg h0 h1) h2
    rw [← mul_div_assoc]
    refine div_pos_of_neg_of_neg ?_ hden
    have := h f hf
    nlinarith [mul_pos hdd this]
  have : 0 < ∑ f ∈ F, ε * ∑ s, edgeTerm d q (pos (p f (s + 1))) (pos (p f (s + 2))) :=
    Finset.sum_pos hpos ⟨f0, hf0⟩
  rw [← Finset.mul_sum, hsum, mul_zero] at this
  exact lt_irrefl _ this

/-- A linear function is nonpositive on the hull of points where it is nonpositive. -/
theorem vol_hull_le {S : Set (Vec3 ℝ)} {a b c q : Vec3 ℝ} (hS : ∀ v ∈ S, vol a b c v ≤ 0) (hq : InHull S q) :
    vol a b c q ≤ 0 := by
  obtain ⟨n, L, p, hp, h0, h1, rfl⟩ := hq
  have : vol a b c ⟨∑ i, L i * (p i).x, ∑ i, L i * (p i).y, ∑ i, L i * (p i).z⟩ = ∑ i, L i * vol a b c (p i) := by
    simp only [vol_eq]
    have e : ∀ k : Vec3 ℝ, (∑ i, L i * (k.x * ((p i).x - a.x) + k.y * ((p i).y - a.y) + k.z * ((p i).z - a.z))) =
        k.x * (∑ i, L i * (p i).x - a.x) + k.y * (∑ i, L i * (p i).y - a.y) + k.z * (∑ i, L i * (p i).z - a.z) := by
      intro k
      have hh : ∀ g : Fin n → ℝ, ∀ r : ℝ, (∑ i, L i * g i - r) = ∑ i, L i * (g i - r) := by
        intro g r
        simp only [mul_sub, Finset.sum_sub_distrib, ← Finset.sum_mul, h1, one_mul]
      rw [hh, hh, hh, Finset.mul_sum, Finset.mul_sum, Finset.mul_sum, ← Finset.sum_add_distrib,
        ← Finset.sum_add_distrib]
      exact Finset.sum_congr rfl fun i _ => by ring
    exact (e ⟨_, _, _⟩).symm
  rw [this]
  exact Finset.sum_nonpos fun i _ => mul_nonpos_of_nonneg_of_nonpos (h0 i) (hS _ (hp i))

/-- A linear function is bounded on a hull by its bound on the points. -/
theorem dot_hull_le {S : Set (Vec3 ℝ)} {w q : Vec3 ℝ} {k : ℝ} (hS : ∀ v ∈ S, dot w v ≤ k) (hq : InHull S q) :
    dot w q ≤ k := by
  obtain ⟨n, L, p, hp, h0, h1, rfl⟩ := hq
  have e : dot w ⟨∑ i, L i * (p i).x, ∑ i, L i * (p i).y, ∑ i, L i * (p i).z⟩ = ∑ i, L i * dot w (p i) := by
    simp only [dot, Finset.mul_sum, ← Finset.sum_add_distrib]
    exact Finset.sum_congr rfl fun i _ => by ring
  rw [e, ← one_mul k, ← h1, Finset.sum_mul]
  exact Finset.sum_le_sum fun i _ => mul_le_mul_of_nonneg_left (hS _ (hp i)) (h0 i)

theorem small_step (F : Finset ℕ) (α β : ℕ → ℝ) (h : ∀ f ∈ F, α f < 0 ∨ (α f = 0 ∧ β f < 0)) :
    ∃ s : ℝ, 0 < s ∧ ∀ f ∈ F, (1 - s) * α f + s * β f < 0 := by
  have h1 : ∀ f ∈ F, ∀ᶠ s in nhdsWithin (0:ℝ) (Set.Ioi 0), (1 - s) * α f + s * β f < 0 := by
    intro f hf
    rcases h f hf with h | ⟨h, h'⟩
    · have hc : ContinuousAt (fun s : ℝ => (1 - s) * α f + s * β f) 0 := by fun_prop
      have := hc.eventually_lt (continuousAt_const (y := (0:ℝ))) (by simpa using h)
      exact nhdsWithin_le_nhds this
    · filter_upwards [self_mem_nhdsWithin] with s hs
      rw [h]
      nlinarith [mul_pos (Set.mem_Ioi.1 hs) (neg_pos.2 h')]
  have h2 := (Filter.eventually_all_finset F).2 h1
  obtain ⟨s, hs, hs'⟩ := (h2.and self_mem_nhdsWithin).exists
  exact ⟨s, hs', hs⟩

/-- A strict sign stays when the points move a little. -/
theorem vol_near {a b c x : Vec3 ℝ} (h : vol a b c x < 0) : ∀ᶠ δ in nhdsWithin (0:ℝ) (Set.Ioi 0),
    ∀ a' b' c' x', Near δ a a' → Near δ b b' → Near δ c c' → Near δ x x' → vol a' b' c' x' < 0 := by
  let e : Vec3 ℝ → Vec3 ℝ → Vec3 ℝ → Vec3 ℝ → Fin 12 → ℝ := fun a b c x =>
    ![a.x, a.y, a.z, b.x, b.y, b.z, c.x, c.y, c.z, x.x, x.y, x.z]
  let G : (Fin 12 → ℝ) → ℝ := fun t => vol ⟨t 0, t 1, t 2⟩ ⟨t 3, t 4, t 5⟩ ⟨t 6, t 7, t 8⟩ ⟨t 9, t 10, t 11⟩
  have hG : Continuous G := by
    simp only [G, vol_eq]
    fun_prop
  have hopen : IsOpen {t | G t < 0} := isOpen_lt hG continuous_const
  obtain ⟨r, hr, hball⟩ := Metric.isOpen_iff.1 hopen (e a b c x) h
  filter_upwards [Ioo_mem_nhdsGT hr] with δ hδ
  intro a' b' c' x' ha hb hc hx
  have hmem : e a' b' c' x' ∈ Metric.ball (e a b c x) r := by
    rw [Metric.mem_ball, dist_pi_lt_iff hr]
    have key : ∀ u v : ℝ, |v - u| ≤ δ → dist u v < r := by
      intro u v h
      rw [Real.dist_eq, abs_sub_comm]; exact lt_of_le_of_lt h hδ.2
    obtain ⟨a1, a2, a3⟩ := ha
    obtain ⟨b1, b2, b3⟩ := hb
    obtain ⟨c1, c2, c3⟩ := hc
    obtain ⟨x1, x2, x3⟩ := hx
    intro i
    fin_cases i
    · exact key _ _ a1
    · exact key _ _ a2
    · exact key _ _ a3
    · exact key _ _ b1
    · exact key _ _ b2
    · exact key _ _ b3
    · exact key _ _ c1
    · exact key _ _ c2
    · exact key _ _ c3
    · exact key _ _ x1
    · exact key _ _ x2
    · exact key _ _ x3
  exact hball hmem

theorem vol_near' {a b c x : Vec3 ℝ} (h : 0 < vol a b c x) : ∀ᶠ δ in nhdsWithin (0:ℝ) (Set.Ioi 0),
    ∀ a' b' c' x', Near δ a a' → Near δ b b' → Near δ c c' → Near δ x x' → 0 < vol a' b' c' x' := by
  have h' : vol b a c x < 0 := by rw [vol_swap]; linarith
  filter_upwards [vol_near h'] with δ hδ
  intro a' b' c' x' ha hb hc hx
  have := hδ b' a' c' x' hb ha hc hx
  rw [vol_swap] at this
  linarith

/-- A point on or beyond a triangle that the apex is on or beyond too, strictly beneath all the triangles at the apex
of a closed mesh, is not beyond any other supporting plane that the apex is beneath. -/
theorem shadow {F : Finset ℕ} {p : ℕ → Fin 3 → ℕ} (pos : ℕ → Vec3 ℝ) (hne : F.Nonempty)
    (hadj : ∀ f ∈ F, ∀ s, ∃ g ∈ F, ∃ t, p g (t + 1) = p f (s + 2) ∧ p g (t + 2) = p f (s + 1))
    (huni : ∀ f ∈ F, ∀ g ∈ F, ∀ s t, p f (s + 1) = p g (t + 1) → p f (s + 2) = p g (t + 2) → f = g ∧ s = t)
    {o x : Vec3 ℝ}
    (hF : ∀ f ∈ F, vol (pos (p f 0)) (pos (p f 1)) (pos (p f 2)) o < 0 ∨
      (vol (pos (p f 0)) (pos (p f 1)) (pos (p f 2)) o = 0 ∧ vol (pos (p f 0)) (pos (p f 1)) (pos (p f 2)) x < 0))
    {a b c a' b' c' : Vec3 ℝ} (hn : triNormal (a, b, c) ≠ .zero) (ho : 0 ≤ vol a b c o) (hx : 0 ≤ vol a b c x)
    (hv : ∀ f ∈ F, ∀ s, pos (p f s) = o ∨ vol a b c (pos (p f s)) ≤ 0)
    (ho' : vol a' b' c' o < 0) (hv' : ∀ f ∈ F, ∀ s, pos (p f s) = o ∨ vol a' b' c' (pos (p f s)) ≤ 0) :
    vol a' b' c' x ≤ 0 := by
  obtain ⟨s, hs, hs'⟩ := small_step F _ _ hF
  set z : Vec3 ℝ := ⟨(1 - s) * o.x + s * x.x, (1 - s) * o.y + s * x.y, (1 - s) * o.z + s * x.z⟩ with hzdef
  have aff : ∀ a b c : Vec3 ℝ, vol a b c z = (1 - s) * vol a b c o + s * vol a b c x := by
    intro a b c; simp only [vol_eq, hzdef]; ring
  have hz := closed_hull (ε := -1) (q := z)
    pos hne hadj huni (by intro f hf; rw [aff]; have := hs' f hf; linarith)
  set w : Vec3 ℝ := ⟨vol a b c o * (triNormal (a', b', c')).x - vol a' b' c' o * (triNormal (a, b, c)).x,
    vol a b c o * (triNormal (a', b', c')).y - vol a' b' c' o * (triNormal (a, b, c)).y,
    vol a b c o * (triNormal (a', b', c')).z - vol a' b' c' o * (triNormal (a, b, c)).z⟩ with hw
  set k : ℝ := vol a b c o * dot (triNormal (a', b', c')) a' - vol a' b' c' o * dot (triNormal (a, b, c)) a with hk
  have hL : ∀ y, dot w y - k = vol a b c o * vol a' b' c' y - vol a' b' c' o * vol a b c y := by
    intro y
    have e : ∀ n y a : Vec3 ℝ, dot n (y.sub a) = dot n y - dot n a := by
      intro n y a; simp only [dot, Vec3.sub]; ring
    have e1 : vol a' b' c' y = dot (triNormal (a', b', c')) y - dot (triNormal (a', b', c')) a' := e _ _ _
    have e2 : vol a b c y = dot (triNormal (a, b, c)) y - dot (triNormal (a, b, c)) a := e _ _ _
    rw [e1, e2, hk, hw]
    simp only [dot]; ring
  have hle := dot_hull_le (w := w) (k := k) (by
    rintro v ⟨f, hf, t, rfl⟩
    have h1 := hL (pos (p f t))
    rcases hv f hf t with h | h
    · rw [h] at h1 ⊢; nlinarith
    · rcases hv' f hf t with h' | h'
      · rw [h'] at h1 ⊢; nlinarith
      · nlinarith [mul_nonneg ho (neg_nonneg.2 h'), mul_nonneg_of_nonpos_of_nonpos ho'.le h]) hz
  have h2 := hL z
  rw [aff, aff] at h2
  have h3 : s * (vol a b c o * vol a' b' c' x - vol a' b' c' o * vol a b c x) ≤ 0 := by nlinarith
  have h4 : vol a b c o * vol a' b' c' x - vol a' b' c' o * vol a b c x ≤ 0 := by
    by_contra hc
    push Not at hc
    nlinarith [mul_pos hs hc]
  by_contra hc
  push Not at hc
  -- neither the apex nor the point is strictly beyond the triangle
  have hx0 : vol a b c x = 0 := by
    refine le_antisymm ?_ hx
    by_contra hx'
    push Not at hx'
    nlinarith [mul_nonneg ho hc.le, mul_pos (neg_pos.2 ho') hx']
  have ho0 : vol a b c o = 0 := by
    refine le_antisymm ?_ ho
    by_contra ho1
    push Not at ho1
    rw [hx0] at h4
    nlinarith [mul_pos ho1 hc]
  -- a point close to `z` beyond the triangle is still inside
  set n := triNormal (a, b, c) with hndef
  have aff2 : ∀ a b c : Vec3 ℝ, ∀ t : ℝ, vol a b c ⟨z.x + t * n.x, z.y + t * n.y, z.z + t * n.z⟩ =
      vol a b c z + t * dot (triNormal (a, b, c)) n := by
    intro a b c t; simp only [vol, dot, Vec3.sub]; ring
  have h5 : ∀ᶠ t in nhdsWithin (0:ℝ) (Set.Ioi 0), ∀ f ∈ F,
      vol (pos (p f 0)) (pos (p f 1)) (pos (p f 2)) ⟨z.x + t * n.x, z.y + t * n.y, z.z + t * n.z⟩ < 0 := by
    refine (Filter.eventually_all_finset F).2 fun f hf => ?_
    have hc : ContinuousAt (fun t : ℝ => vol (pos (p f 0)) (pos (p f 1)) (pos (p f 2)) z +
        t * dot (triNormal (pos (p f 0), pos (p f 1), pos (p f 2))) n) 0 := by fun_prop
    have := hc.eventually_lt (continuousAt_const (y := (0:ℝ))) (by
      have := hs' f hf
      rw [← aff] at this
      simpa using this)
    filter_upwards [nhdsWithin_le_nhds this] with t ht
    rw [aff2]; exact ht
  obtain ⟨t, ht, ht0⟩ := (h5.and self_mem_nhdsWithin).exists
  have hz' := closed_hull (ε := -1) (q := ⟨z.x + t * n.x, z.y + t * n.y, z.z + t * n.z⟩) pos hne hadj huni (by
    intro f hf
    have := ht f hf
    linarith)
  have hle' := vol_hull_le (a := a) (b := b) (c := c) (by
    rintro v ⟨f, hf, t, rfl⟩
    rcases hv f hf t with h | h
    · rw [h]; exact ho0.le
    · exact h) hz'
  rw [aff2, aff, ho0, hx0, ← hndef] at hle'
  have hnn : 0 < dot n n := by
    by_contra hcon
    apply hn
    have hzz : n.x = 0 ∧ n.y = 0 ∧ n.z = 0 := by
      simp only [dot] at hcon
      refine ⟨?_, ?_, ?_⟩ <;> nlinarith [mul_self_nonneg n.x, mul_self_nonneg n.y, mul_self_nonneg n.z]
    ext
    · exact hzz.1
    · exact hzz.2.1
    · exact hzz.2.2
  have := mul_pos (Set.mem_Ioi.1 ht0) hnn
  linarith

end
end Zeo.QHGeom

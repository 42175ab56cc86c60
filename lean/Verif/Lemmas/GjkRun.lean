import Verif.Lemmas.Gjk
import Verif.Spec.Hull
import Verif.Props.C36

/-! # Runs of the GJK loop -/

namespace Zeo.GJK
open Zeo

/-- No triangle of the points is degenerate up to the tolerance without being degenerate. -/
def AboveTol (τ : ℝ) (S : Set (Vec3 ℝ)) : Prop :=
  ∀ a ∈ S, ∀ b ∈ S, ∀ c ∈ S, Tri3.outerProd a b c = .zero ∨ ¬ (Tri3.outerProd a b c).isTol τ

theorem seg_opt {a b cp : Vec3 ℝ} (hn : Spec.IsNearest (Spec.segment a b) .zero cp) :
    cp.inner cp ≤ cp.inner a ∧ cp.inner cp ≤ cp.inner b := by
  obtain ⟨⟨x, y, hx, hy, hs, rfl⟩, hmin⟩ := hn
  refine ⟨opt_of_min fun t ht ht1 => hmin _ ⟨(1 - t) * x + t, (1 - t) * y, ?_, ?_, ?_, ?_⟩,
    opt_of_min fun t ht ht1 => hmin _ ⟨(1 - t) * x, (1 - t) * y + t, ?_, ?_, ?_, ?_⟩⟩
  · have := mul_nonneg (sub_nonneg.2 ht1) hx; linarith
  · exact mul_nonneg (sub_nonneg.2 ht1) hy
  · linear_combination (1 - t) * hs
  · ext <;> simp only [Spec.comb] <;> ring
  · exact mul_nonneg (sub_nonneg.2 ht1) hx
  · have := mul_nonneg (sub_nonneg.2 ht1) hy; linarith
  · linear_combination (1 - t) * hs
  · ext <;> simp only [Spec.comb] <;> ring

theorem tetra_opt {w : Fin 4 → Vec3 ℝ} {cp : Vec3 ℝ} (hn : Spec.IsNearest (Spec.tetra (w 0) (w 1) (w 2) (w 3)) .zero cp) (i : Fin 4) :
    cp.inner cp ≤ cp.inner (w i) := by
  obtain ⟨⟨a, b, c, d, ha, hb, hc, hd, hs, rfl⟩, hmin⟩ := hn
  refine opt_of_min fun t ht ht1 => hmin _ ?_
  have h1 := sub_nonneg.2 ht1
  have qa := mul_nonneg h1 ha
  have qb := mul_nonneg h1 hb
  have qc := mul_nonneg h1 hc
  have qd := mul_nonneg h1 hd
  fin_cases i
  · exact ⟨(1 - t) * a + t, (1 - t) * b, (1 - t) * c, (1 - t) * d, by linarith, qb, qc, qd, by linear_combination (1 - t) * hs,
      by ext <;> simp only [Spec.comb, Fin.zero_eta] <;> ring⟩
  · exact ⟨(1 - t) * a, (1 - t) * b + t, (1 - t) * c, (1 - t) * d, qa, by linarith, qc, qd, by linear_combination (1 - t) * hs,
      by ext <;> simp only [Spec.comb, Fin.mk_one] <;> ring⟩
  · exact ⟨(1 - t) * a, (1 - t) * b, (1 - t) * c + t, (1 - t) * d, qa, qb, by linarith, qd, by linear_combination (1 - t) * hs,
      by ext <;> simp only [Spec.comb, Fin.reduceFinMk] <;> ring⟩
  · exact ⟨(1 - t) * a, (1 - t) * b, (1 - t) * c, (1 - t) * d + t, qa, qb, qc, by linarith, by linear_combination (1 - t) * hs,
      by ext <;> simp only [Spec.comb, Fin.reduceFinMk] <;> ring⟩

/-- The closest point of a simplex without sub-tolerance triangles is optimal. -/
theorem weights_opt {τ : ℝ} (hτ : 0 ≤ τ) (hτ' : τ ≤ 1/4) {w : Fin 4 → Vec3 ℝ} {b : Fin 4 → Bool} (hnd : NonDeg w (idx b))
    (hT : AboveTol τ {x | ∃ i ∈ idx b, w i = x}) {ws : List ℝ} {cp : Vec3 ℝ} (h : weights τ w (idx b) = some (ws, cp)) :
    ∀ i ∈ idx b, cp.inner cp ≤ cp.inner (w i) := by
  have tri : ∀ i j k, idx b = [i, j, k] → ∀ x ∈ idx b, cp.inner cp ≤ cp.inner (w x) := by
    intro i j k e
    rw [e] at h hnd hT ⊢
    have hh : ¬ (Tri3.outerProd (w i) (w j) (w k)).isTol τ ∨ (Tri3.outerProd (w i) (w j) (w k) = .zero ∧ (w i ≠ w j ∨ w j ≠ w k)) := by
      rcases hT (w i) ⟨i, by simp, rfl⟩ (w j) ⟨j, by simp, rfl⟩ (w k) ⟨k, by simp, rfl⟩ with h0 | h0
      · exact Or.inr ⟨h0, hnd⟩
      · exact Or.inl h0
    obtain ⟨r, hr, hn, -⟩ := C20_fromOrigin τ hτ hτ' (w i) (w j) (w k) hh
    simp only [weights, hr, Option.map_some, Option.some.injEq, Prod.mk.injEq] at h
    rw [h.2] at hn
    obtain ⟨o1, o2, o3⟩ := tri_opt hn
    intro x hx
    simp only [List.mem_cons, List.not_mem_nil, or_false] at hx
    rcases hx with rfl | rfl | rfl <;> assumption
  rcases idx_cases b with e | ⟨i, j, k, l, hn, e⟩ | ⟨i, j, k, l, hn, e⟩ | e | e
  · rw [e]; intro x hx; cases hx
  · rw [e] at h ⊢
    intro x hx
    obtain rfl := List.mem_singleton.1 hx
    simp only [weights, Option.some.injEq, Prod.mk.injEq] at h
    rw [h.2]
  · rw [e] at h hnd ⊢
    obtain ⟨r, hr, hn, -⟩ := C19_fromOrigin (w i) (w j) hnd
    simp only [weights, hr, Option.map_some, Option.some.injEq, Prod.mk.injEq] at h
    rw [h.2] at hn
    obtain ⟨o1, o2⟩ := seg_opt hn
    intro x hx
    simp only [List.mem_cons, List.not_mem_nil, or_false] at hx
    rcases hx with rfl | rfl <;> assumption
  · rcases e with e | e | e | e
    · exact tri _ _ _ e
    · exact tri _ _ _ e
    · exact tri _ _ _ e
    · exact tri _ _ _ e
  · rw [e] at h hnd hT ⊢
    have hv : vol w ≠ 0 := hnd
    have m4 : ∀ i : Fin 4, i ∈ [(0 : Fin 4), 1, 2, 3] := by decide
    have fac : ∀ i j k : Fin 4, Tri3.outerProd (w i) (w j) (w k) ≠ .zero → ¬ (Tri3.outerProd (w i) (w j) (w k)).isTol τ := by
      intro i j k hne
      exact (hT (w i) ⟨i, m4 i, rfl⟩ (w j) ⟨j, m4 j, rfl⟩ (w k) ⟨k, m4 k, rfl⟩).resolve_left hne
    have nz : ∀ d, Function.update w d (w d) = w := fun d => Function.update_eq_self d w
    have z0 : ∀ x : Vec3 ℝ, (Vec3.zero : Vec3 ℝ).inner x = 0 := fun x => by simp [Vec3.inner, Vec3.zero]
    obtain ⟨r, hr, hn, -⟩ := C21_fromOrigin τ hτ hτ' (w 0) (w 1) (w 2) (w 3) hv
      (fac 1 2 3 fun h0 => hv (by have := (vol_facet w (w 0)).1; rw [nz, h0, z0, neg_zero] at this; exact this))
      (fac 2 3 0 fun h0 => hv (by have := (vol_facet w (w 1)).2.1; rw [nz, h0, z0] at this; exact this))
      (fac 3 0 1 fun h0 => hv (by have := (vol_facet w (w 2)).2.2.1; rw [nz, h0, z0, neg_zero] at this; exact this))
      (fac 0 1 2 fun h0 => hv (by have := (vol_facet w (w 3)).2.2.2.1; rw [nz, h0, z0] at this; exact this))
    simp only [weights, hr, Option.map_some, Option.some.injEq, Prod.mk.injEq] at h
    rw [h.2] at hn
    exact fun i _ => tetra_opt hn i

/-- Points of the support map: `P p1 p2` holds of the returned points. -/
def Supp (P : Vec3 ℝ → Vec3 ℝ → Prop) (supp : Vec3 ℝ → Option (Vec3 ℝ × Vec3 ℝ)) : Prop :=
  ∀ v, ∃ p1 p2, supp v = some (p1, p2) ∧ P p1 p2 ∧ ∀ q1 q2, P q1 q2 → v.inner (p1.sub p2) ≤ v.inner (q1.sub q2)

/-- What is known of every live state of the loop beyond `Inv`. -/
structure Live (τ : ℝ) (P : Vec3 ℝ → Vec3 ℝ → Prop) (s : Simplex) (v : Vec3 ℝ) : Prop extends Inv τ P s v where
  opt : AboveTol τ {x | ∃ q1 q2, P q1 q2 ∧ x = q1.sub q2} → ∀ i, (s.slot i).swY = true → v.inner v ≤ v.inner (s.slot i).w
  nondeg : NonDeg (fun i => (s.slot i).w) (idx fun i => (s.slot i).swY)

theorem round_live {τ : ℝ} (hτ : 0 ≤ τ) (hτ' : τ ≤ 1/4) (junk : ℝ) {P : Vec3 ℝ → Vec3 ℝ → Prop} {s : Simplex} {v : Vec3 ℝ} (h : Pre P s v)
    (h4 : s.n < 4) {p1 p2 : Vec3 ℝ} (hP : P p1 p2) (hdup : ¬ s.checkDup (p1.sub p2))
    (hv : s.n = 3 → v.inner (p1.sub p2) ≠ v.inner v) :
    ∃ s1 s2 v2, s.addSlot junk (p1.sub p2) p1 p2 = some s1 ∧ s1.closest τ = some (s2, v2) ∧ Live τ P s2 v2 ∧
      (∃ k, (s2.slot k).swY = true ∧ (s2.slot k).w = p1.sub p2) ∧
      (∀ i, (s.slot i).swW = true → (s2.slot i).swY = true ∧ (s2.slot i).w = (s.slot i).w) := by
  obtain ⟨k, s1, s2, v2, ha, hc, hI, hk, h1, h2, h3, h3', h5, h6, ws, h7⟩ := round hτ hτ' junk h h4 hP hdup hv
  refine ⟨s1, s2, v2, ha, hc, ⟨hI, fun hT i hi => ?_, h6⟩, ⟨k, (h5 k).2 (Or.inr rfl), h2⟩, fun i hi => ?_⟩
  · refine weights_opt hτ hτ' h6 ?_ h7 i (idx_mem.2 hi)
    have mem : ∀ x, (∃ i ∈ idx fun i => (s2.slot i).swY, (s2.slot i).w = x) → ∃ q1 q2, P q1 q2 ∧ x = q1.sub q2 := by
      rintro x ⟨j, hj, rfl⟩
      obtain ⟨e, hp⟩ := hI.pts j (idx_mem.1 hj)
      exact ⟨_, _, hp, e⟩
    exact fun a ha b hb c hc => hT a (mem a ha) b (mem b hb) c (mem c hc)
  · have hik : i ≠ k := by rintro rfl; rw [hk] at hi; cases hi
    exact ⟨(h5 i).2 (Or.inl hi), (h1 i hik).1⟩

/-- How the loop ends, from a live state. -/
theorem loop_live {τ : ℝ} (hτ : 0 ≤ τ) (hτ' : τ ≤ 1/4) (junk : ℝ) {P : Vec3 ℝ → Vec3 ℝ → Prop} {supp : Vec3 ℝ → Option (Vec3 ℝ × Vec3 ℝ)}
    (hS : Supp P supp) : ∀ (fuel : ℕ) {s : Simplex} {v : Vec3 ℝ}, Live τ P s v → s.n < 4 → ∀ {o},
      loop τ junk supp fuel s v (some v.sqrNorm) = some o → ∃ s' v', o = .done s' v' ∧ Live τ P s' v' ∧
        (s'.n < 4 → (∃ p1 p2, supp v' = some (p1, p2) ∧ (s'.checkDup (p1.sub p2) ∨ v'.sqrNorm - (p1.sub p2).inner v' ≤ τ)))
  | 0, s, v, _, _, o, ho => by cases ho
  | fuel + 1, s, v, h, h4, o, ho => by
    obtain ⟨p1, p2, hp, hP, -⟩ := hS v
    rw [loop, hp] at ho
    dsimp only at ho
    split at ho
    · rename_i hex
      obtain rfl := Option.some.inj ho
      refine ⟨s, v, rfl, h, fun _ => ⟨p1, p2, hp, ?_⟩⟩
      rcases hex with hd | ⟨d, hd, ht⟩
      · exact Or.inl hd
      · obtain rfl := Option.some.inj hd
        exact Or.inr ht
    · rename_i hex
      push Not at hex
      have hne : v.inner (p1.sub p2) ≠ v.inner v := by
        have := hex.2 v.sqrNorm rfl
        intro he
        have e1 : v.sqrNorm = v.inner v := by simp only [zeo]
        have e2 : (p1.sub p2).inner v = v.inner (p1.sub p2) := by simp only [zeo]; ring
        rw [e1, e2, he] at this
        linarith
      obtain ⟨s1, s2, v2, ha, hc, hL, -⟩ := round_live hτ hτ' junk (h.toInv.pre hτ) h4 hP hex.1 (fun _ => hne)
      rw [ha] at ho
      dsimp only at ho
      rw [hc] at ho
      dsimp only at ho
      split at ho
      · rename_i hlt
        exact loop_live hτ hτ' junk hS fuel hL hlt ho
      · rename_i hlt
        obtain rfl := Option.some.inj ho
        exact ⟨s2, v2, rfl, hL, fun h => absurd h hlt⟩

/-- How the loop ends, from the start. -/
theorem loop_start {τ : ℝ} (hτ : 0 ≤ τ) (hτ' : τ ≤ 1/4) (junk : ℝ) {P : Vec3 ℝ → Vec3 ℝ → Prop} {supp : Vec3 ℝ → Option (Vec3 ℝ × Vec3 ℝ)}
    (hS : Supp P supp) (v : Vec3 ℝ) (fuel : ℕ) :
    ∃ s1 v1, Live τ P s1 v1 ∧ loop τ junk supp (fuel + 1) Simplex.init v none =
      if s1.n < 4 then loop τ junk supp fuel s1 v1 (some v1.sqrNorm) else some (.done s1 v1) := by
  obtain ⟨p1, p2, hp, hP, -⟩ := hS v
  have hd : ¬ Simplex.init.checkDup (p1.sub p2) := by rintro ⟨i, hi, -⟩; cases hi
  obtain ⟨s1, s2, v2, ha, hc, hL, -⟩ := round_live hτ hτ' junk (pre_init P v) (by decide) hP hd (fun h => by cases h)
  refine ⟨s2, v2, hL, ?_⟩
  rw [loop, hp]
  dsimp only
  rw [if_neg (by rintro (h | ⟨d, h, -⟩); exacts [hd h, by cases h]), ha]
  dsimp only
  rw [hc]

/-! ## Termination at zero tolerance -/

/-- `v` is the point of least norm of the hull of `T`. -/
def Opt (T : Set (Vec3 ℝ)) (v : Vec3 ℝ) : Prop := Spec.InHull T v ∧ ∀ x ∈ T, v.inner v ≤ v.inner x

theorem inner_hull {T : Set (Vec3 ℝ)} {v q : Vec3 ℝ} {c : ℝ} (h : ∀ x ∈ T, c ≤ v.inner x) (hq : Spec.InHull T q) : c ≤ v.inner q := by
  obtain ⟨n, L, p, hp, hL, hs, rfl⟩ := hq
  have : v.inner ⟨∑ i, L i * (p i).x, ∑ i, L i * (p i).y, ∑ i, L i * (p i).z⟩ = ∑ i, L i * v.inner (p i) := by
    simp only [Vec3.inner, Finset.mul_sum, ← Finset.sum_add_distrib]
    exact Finset.sum_congr rfl fun i _ => by ring
  rw [this]
  calc c = ∑ i, L i * c := by rw [← Finset.sum_mul, hs, one_mul]
    _ ≤ _ := Finset.sum_le_sum fun i _ => mul_le_mul_of_nonneg_left (h _ (hp i)) (hL i)

theorem Opt.le {T : Set (Vec3 ℝ)} {v v' : Vec3 ℝ} (h : Opt T v) (h' : Opt T v') : v.inner v ≤ v'.inner v' := by
  have h1 := inner_hull h.2 h'.1
  have : 0 ≤ (v.sub v').inner (v.sub v') := by simp only [zeo]; nlinarith [mul_self_nonneg (v.x - v'.x), mul_self_nonneg (v.y - v'.y), mul_self_nonneg (v.z - v'.z)]
  have e : (v.sub v').inner (v.sub v') = v.inner v - 2 * v.inner v' + v'.inner v' := by simp only [zeo]; ring
  linarith

/-- The points in the testing simplex. -/
def Simplex.points (s : Simplex) : Set (Vec3 ℝ) := {x | ∃ i, (s.slot i).swY = true ∧ (s.slot i).w = x}

theorem hull_of_csum {T : Set (Vec3 ℝ)} {L : Fin 4 → ℝ} {w : Fin 4 → Vec3 ℝ} (h0 : ∀ i, 0 ≤ L i) (h1 : ∑ i, L i = 1)
    (hT : ∀ i, L i ≠ 0 → w i ∈ T) : Spec.InHull T (csum L w) := by
  obtain ⟨j, hj⟩ : ∃ j, L j ≠ 0 := by
    by_contra hcon
    push Not at hcon
    rw [Finset.sum_eq_zero fun i _ => hcon i] at h1
    exact zero_ne_one h1
  classical
  refine ⟨4, L, fun i => if L i = 0 then w j else w i, fun i => ?_, h0, h1, ?_⟩
  · dsimp only
    split
    · exact hT j hj
    · rename_i hi; exact hT i hi
  · ext <;> (simp only [csum]; refine Finset.sum_congr rfl fun i _ => ?_; split <;> simp [*])

theorem Live.opt_points {τ : ℝ} {P : Vec3 ℝ → Vec3 ℝ → Prop} {s : Simplex} {v : Vec3 ℝ} (h : Live τ P s v)
    (hT : AboveTol τ {x | ∃ q1 q2, P q1 q2 ∧ x = q1.sub q2}) : Opt s.points v := by
  obtain ⟨L, ht, -, hy⟩ := h.lam
  refine ⟨?_, fun x ⟨i, hi, hx⟩ => hx ▸ h.opt hT i hi⟩
  rw [ht.comb]
  exact hull_of_csum ht.nonneg ht.sum fun i hi => ⟨i, hy i hi, rfl⟩

theorem aboveTol_zero (S : Set (Vec3 ℝ)) : AboveTol 0 S := by
  intro a _ b _ c _
  by_cases h : (Tri3.outerProd a b c).isTol 0
  · left
    simp only [Vec3.isTol, zIsTol, abs_nonpos_iff] at h
    ext
    · simp [h.1, Vec3.zero]
    · simp [h.2.1, Vec3.zero]
    · simp [h.2.2, Vec3.zero]
  · exact Or.inr h

/-- A round at zero tolerance makes the vector shorter. -/
theorem shorter {P : Vec3 ℝ → Vec3 ℝ → Prop} {s s2 : Simplex} {v v2 w : Vec3 ℝ} (h : Live 0 P s v) (h2 : Live 0 P s2 v2)
    (hw : ∃ k, (s2.slot k).swY = true ∧ (s2.slot k).w = w)
    (hW : ∀ i, (s.slot i).swW = true → (s2.slot i).swY = true ∧ (s2.slot i).w = (s.slot i).w)
    (hlt : 0 < v.inner v - v.inner w) : v2.inner v2 < v.inner v := by
  obtain ⟨L, ht, hs, hy⟩ := h.lam
  have o2 := h2.opt (aboveTol_zero _)
  have hv : Spec.InHull s2.points v := by
    rw [ht.comb]
    refine hull_of_csum ht.nonneg ht.sum fun i hi => ?_
    have : (s.slot i).swW = true := (h.sw i).2 (by
      rw [hs i, if_neg (not_le.2 (lt_of_le_of_ne (ht.nonneg i) (Ne.symm hi)))]; exact hi)
    exact ⟨i, hW i this⟩
  have h1 : v2.inner v2 ≤ v2.inner v := inner_hull (T := s2.points) (fun x ⟨i, hi, hx⟩ => hx ▸ o2 i hi) hv
  obtain ⟨k, hk, hkw⟩ := hw
  have hw2 := o2 k hk
  rw [hkw] at hw2
  by_contra hcon
  push Not at hcon
  have e : (v.sub v2).inner (v.sub v2) = v.inner v - 2 * v2.inner v + v2.inner v2 := by simp only [zeo]; ring
  have hz : (v.x - v2.x) * (v.x - v2.x) + (v.y - v2.y) * (v.y - v2.y) + (v.z - v2.z) * (v.z - v2.z) ≤ 0 := by
    have : (v.sub v2).inner (v.sub v2) ≤ 0 := by rw [e]; linarith
    simpa only [zeo] using this
  have ex : v.x = v2.x := by nlinarith [mul_self_nonneg (v.x - v2.x), mul_self_nonneg (v.y - v2.y), mul_self_nonneg (v.z - v2.z)]
  have ey : v.y = v2.y := by nlinarith [mul_self_nonneg (v.x - v2.x), mul_self_nonneg (v.y - v2.y), mul_self_nonneg (v.z - v2.z)]
  have ez : v.z = v2.z := by nlinarith [mul_self_nonneg (v.x - v2.x), mul_self_nonneg (v.y - v2.y), mul_self_nonneg (v.z - v2.z)]
  have : v = v2 := by ext <;> assumption
  rw [this] at hlt
  linarith

open Classical in
/-- The number of subsets of `M` whose point of least norm is shorter than `v`. -/
noncomputable def rank (M : Finset (Vec3 ℝ)) (v : Vec3 ℝ) : ℕ :=
  (M.powerset.filter fun T : Finset (Vec3 ℝ) => ∃ v', Opt (T : Set (Vec3 ℝ)) v' ∧ v'.inner v' < v.inner v).card

open Classical in
theorem rank_lt {M : Finset (Vec3 ℝ)} {T : Set (Vec3 ℝ)} (hT : ∀ x ∈ T, x ∈ M) {v v2 : Vec3 ℝ} (h2 : Opt T v2) (hlt : v2.inner v2 < v.inner v) :
    rank M v2 < rank M v := by
  have hfin : ((M.filter fun x => x ∈ T : Finset _) : Set (Vec3 ℝ)) = T := by
    ext x; simp only [Finset.coe_filter, Set.mem_setOf_eq]; exact ⟨fun h => h.2, fun h => ⟨hT x h, h⟩⟩
  apply Finset.card_lt_card
  refine ⟨fun U hU => ?_, fun hsub => ?_⟩
  · simp only [Finset.mem_filter] at hU ⊢
    obtain ⟨hM, v', ho, hl⟩ := hU
    exact ⟨hM, v', ho, hl.trans hlt⟩
  · have hin : (M.filter fun x => x ∈ T) ∈ M.powerset.filter fun U : Finset (Vec3 ℝ) => ∃ v', Opt (U : Set (Vec3 ℝ)) v' ∧ v'.inner v' < v.inner v := by
      simp only [Finset.mem_filter, Finset.mem_powerset]
      exact ⟨Finset.filter_subset _ _, v2, by rw [hfin]; exact h2, hlt⟩
    have := hsub hin
    simp only [Finset.mem_filter] at this
    obtain ⟨-, v', ho, hl⟩ := this
    rw [hfin] at ho
    exact absurd hl (not_lt.2 (h2.le ho))

/-- At zero tolerance the loop ends after at most `rank + 1` rounds. -/
theorem loop_ends (junk : ℝ) {P : Vec3 ℝ → Vec3 ℝ → Prop} {supp : Vec3 ℝ → Option (Vec3 ℝ × Vec3 ℝ)} (hS : Supp P supp)
    (M : Finset (Vec3 ℝ)) (hM : ∀ q1 q2, P q1 q2 → q1.sub q2 ∈ M) : ∀ (fuel : ℕ) {s : Simplex} {v : Vec3 ℝ}, Live 0 P s v → s.n < 4 →
      rank M v < fuel → ∃ o, loop 0 junk supp fuel s v (some v.sqrNorm) = some o
  | 0, s, v, _, _, hr => absurd hr (Nat.not_lt_zero _)
  | fuel + 1, s, v, h, h4, hr => by
    obtain ⟨p1, p2, hp, hP, -⟩ := hS v
    rw [loop, hp]
    dsimp only
    split
    · exact ⟨_, rfl⟩
    · rename_i hex
      push Not at hex
      have hgt := hex.2 v.sqrNorm rfl
      have e1 : v.sqrNorm = v.inner v := by simp only [zeo]
      have e2 : (p1.sub p2).inner v = v.inner (p1.sub p2) := by simp only [zeo]; ring
      rw [e1, e2] at hgt
      obtain ⟨s1, s2, v2, ha, hc, hL, hk, hW⟩ := round_live le_rfl (by norm_num) junk (h.toInv.pre le_rfl) h4 hP hex.1 (fun _ he => by rw [he] at hgt; linarith)
      rw [ha]
      dsimp only
      rw [hc]
      dsimp only
      split
      · rename_i hlt
        have hsh := shorter h hL hk hW hgt
        have hr2 := rank_lt (M := M) (T := s2.points) (fun x ⟨i, hi, hx⟩ => by
          obtain ⟨e, hp'⟩ := hL.pts i hi
          rw [← hx, e]; exact hM _ _ hp') (hL.opt_points (aboveTol_zero _)) hsh
        exact loop_ends junk hS M hM fuel hL hlt (by omega)
      · exact ⟨_, rfl⟩

end Zeo.GJK

import Verif.Lemmas.Sweep

/-! # C81: prisms and pyramids -/

namespace Zeo
open Spec Sweep

private noncomputable def sgn (b : Bool) : ℝ := if b then -1 else 1

private noncomputable def area (vert : ℕ → Vec3 ℝ) (w : Vec3 ℝ) (a b : ℕ) : ℝ := w.inner ((vert a).outer (vert b))

private theorem area_anti (vert : ℕ → Vec3 ℝ) (w : Vec3 ℝ) (a b : ℕ) : area vert w a b = - area vert w b a := by
  simp only [area, zeo]; ring

private theorem area_tri (vert : ℕ → Vec3 ℝ) (w : Vec3 ℝ) (t : ℕ × ℕ × ℕ) :
    triSum (area vert w) t = w.inner (Tri3.outerProd (vert t.1) (vert t.2.1) (vert t.2.2)) := by
  simp only [triSum, area, Tri3.outerProd, zeo]; ring

/-- Six times the signed volume of the cone of a face. -/
private noncomputable def dv (vert : ℕ → Vec3 ℝ) (f : Face ℝ) : ℝ := det3 (vert f.i0) (vert f.i1) (vert f.i2)

private theorem volume_sum (ph : PH ℝ) : ph.volume = (ph.face.map (dv ph.vert)).sum / 6 := by
  unfold PH.volume
  rw [foldl_add_sum, zero_add]
  have : ph.coneVolume = fun f => (1 / 6) * dv ph.vert f := by
    funext f
    unfold PH.coneVolume dv
    rw [C40_cone]
    simp only [det3, zeo]; ring
  rw [this, List.sum_map_mul_left]; ring

private def fsum (g : ℕ → ℕ → ℝ) (f : Face ℝ) : ℝ := triSum g (f.i0, f.i1, f.i2)

private theorem fsum_mk (τ : ℝ) (vert : ℕ → Vec3 ℝ) (g : ℕ → ℕ → ℝ) (hg : ∀ a b, g a b = - g b a) (fl : Bool) (a b c : ℕ) :
    fsum g (mk τ vert fl a b c) = sgn fl * triSum g (a, b, c) := by
  cases fl
  · simp [mk, sgn, fsum, PH.mkFace]
  · simp only [mk, sgn, fsum, PH.mkFace, triSum, if_true]
    rw [hg a c, hg c b, hg b a]; ring

private theorem dv_mk (τ : ℝ) (vert : ℕ → Vec3 ℝ) (fl : Bool) (a b c : ℕ) :
    dv vert (mk τ vert fl a b c) = sgn fl * det3 (vert a) (vert b) (vert c) := by
  cases fl
  · simp [mk, sgn, dv, PH.mkFace]
  · simp only [mk, sgn, dv, PH.mkFace, det3, if_true]; ring

/-- What a bottom in a plane is. -/
private theorem bottom_spec (τ : ℝ) (junk : Tri3 ℝ) (vert : ℕ → Vec3 ℝ) (L : List ℕ) (ref N : Vec3 ℝ) (d : ℝ)
    (hL : 3 ≤ L.length) (hN : N.inner N = 1) (hd : ∀ i ∈ L, N.inner (vert i) = d) (hr : ref.inner N ≠ 0)
    (hreg : (Loop.run τ (Loop.norm τ (L.map vert)) junk L.length (L.map vert)).2.1 = true) :
    ∃ fl : Bool, (fl = true ↔ ref.inner N * N.inner (Loop.norm τ (L.map vert)) < 0) ∧
      bottom τ vert L ref = (run τ vert (Loop.norm τ (L.map vert)) L.length L).map
        (fun t => mk τ vert fl t.1 t.2.1 t.2.2) ∧
      (∀ g, (∀ a b, g a b = - g b a) → ((bottom τ vert L ref).map (fsum g)).sum = sgn fl * loopSum g L) ∧
      ((bottom τ vert L ref).map (dv vert)).sum = sgn fl * d * loopSum (area vert N) L ∧
      (∀ w, loopSum (area vert w) L = w.inner N * loopSum (area vert N) L) ∧
      0 < loopSum (area vert N) L * N.inner (Loop.norm τ (L.map vert)) ∧
      (bottom τ vert L ref).length = L.length - 2 ∧
      (∀ f ∈ bottom τ vert L ref, f.i0 ∈ L ∧ f.i1 ∈ L ∧ f.i2 ∈ L) := by
  set nrm := Loop.norm τ (L.map vert) with hnrm
  obtain ⟨h1, h2, h3⟩ := run_regular τ vert nrm junk L.length L le_rfl hreg
  set ts := run τ vert nrm L.length L with hts
  have hw : ∀ t ∈ ts, ∀ w : Vec3 ℝ, w.inner (Tri3.outerProd (vert t.1) (vert t.2.1) (vert t.2.2)) =
      w.inner N * N.inner (Tri3.outerProd (vert t.1) (vert t.2.1) (vert t.2.2)) := by
    intro t ht w
    obtain ⟨i0, i1, i2, -⟩ := h2 t ht
    exact area_normal N _ _ _ w hN d (hd _ i0) (hd _ i1) (hd _ i2)
  have hpos : ∀ t ∈ ts, ∃ X : ℝ, 0 < X * N.inner nrm ∧ (∀ w : Vec3 ℝ, w.inner (triOf τ vert t).norm = X * w.inner N) ∧
      0 < N.inner (Tri3.outerProd (vert t.1) (vert t.2.1) (vert t.2.2)) * N.inner nrm := by
    intro t ht
    obtain ⟨-, -, -, i3⟩ := h2 t ht
    obtain ⟨k, hk, e⟩ := norm_outerProd τ (vert t.1) (vert t.2.1) (vert t.2.2)
    have e1 : ∀ w : Vec3 ℝ, w.inner (triOf τ vert t).norm =
        (k * N.inner (Tri3.outerProd (vert t.1) (vert t.2.1) (vert t.2.2))) * w.inner N := by
      intro w
      have : w.inner (triOf τ vert t).norm = k * w.inner (Tri3.outerProd (vert t.1) (vert t.2.1) (vert t.2.2)) := by
        unfold triOf
        rw [e]
        generalize Tri3.outerProd (vert t.1) (vert t.2.1) (vert t.2.2) = u
        simp only [zeo]; ring
      rw [this, hw t ht w]; ring
    have e2 : 0 < (k * N.inner (Tri3.outerProd (vert t.1) (vert t.2.1) (vert t.2.2))) * N.inner nrm := by
      have := e1 nrm
      have c1 : nrm.inner (triOf τ vert t).norm = (triOf τ vert t).norm.inner nrm := by simp only [zeo]; ring
      have c2 : nrm.inner N = N.inner nrm := by simp only [zeo]; ring
      rw [c1, c2] at this
      rw [← this]; exact i3
    refine ⟨_, e2, e1, ?_⟩
    by_contra hc
    have := mul_nonneg hk (neg_nonneg.2 (not_lt.1 hc))
    nlinarith
  have hb : bottom τ vert L ref = ts.map (fun t => mk τ vert (decide (ref.inner N * N.inner nrm < 0)) t.1 t.2.1 t.2.2) := by
    unfold bottom
    rw [← hnrm, ← hts]
    apply List.map_congr_left
    intro t ht
    obtain ⟨X, hX, hXw, -⟩ := hpos t ht
    have e : ref.inner (PH.mkFace τ vert t.1 t.2.1 t.2.2).norm = X * ref.inner N := hXw ref
    have : ref.inner (PH.mkFace τ vert t.1 t.2.1 t.2.2).norm < 0 ↔ ref.inner N * N.inner nrm < 0 := by
      rw [e]
      rcases lt_trichotomy X 0 with h | h | h
      · have hm : N.inner nrm < 0 := by by_contra hc; nlinarith
        constructor <;> intro h'
        · have : 0 < ref.inner N := by by_contra hc; nlinarith
          nlinarith
        · have : 0 < ref.inner N := by by_contra hc; nlinarith
          nlinarith
      · rw [h, zero_mul] at hX; exact absurd hX (lt_irrefl _)
      · have hm : 0 < N.inner nrm := by by_contra hc; nlinarith
        constructor <;> intro h'
        · have : ref.inner N < 0 := by by_contra hc; nlinarith
          nlinarith
        · have : ref.inner N < 0 := by by_contra hc; nlinarith
          nlinarith
    by_cases h : ref.inner N * N.inner nrm < 0
    · rw [if_pos (this.2 h)]; simp [mk, h]
    · rw [if_neg (mt this.1 h)]; simp [mk, h]
  refine ⟨decide (ref.inner N * N.inner nrm < 0), by simp, hb, ?_, ?_, ?_, ?_, ?_, ?_⟩
  · intro g hg
    rw [hb, List.map_map, ← h1 g hg, ← List.sum_map_mul_left]
    congr 1
    apply List.map_congr_left
    intro t _
    exact fsum_mk τ vert g hg _ _ _ _
  · rw [hb, List.map_map, ← h1 _ (area_anti vert N), ← List.sum_map_mul_left]
    congr 1
    apply List.map_congr_left
    intro t ht
    obtain ⟨i0, -⟩ := h2 t ht
    have e : det3 (vert t.1) (vert t.2.1) (vert t.2.2) =
        (vert t.1).inner (Tri3.outerProd (vert t.1) (vert t.2.1) (vert t.2.2)) := by
      simp only [det3, Tri3.outerProd, zeo]; ring
    have e2 : (vert t.1).inner N = d := by rw [← hd _ i0]; simp only [zeo]; ring
    rw [Function.comp_apply, dv_mk, e, hw t ht, e2, area_tri]; ring
  · intro w
    rw [← h1 _ (area_anti vert w), ← h1 _ (area_anti vert N), ← List.sum_map_mul_left]
    congr 1
    apply List.map_congr_left
    intro t ht
    rw [area_tri, area_tri, hw t ht w]
  · rw [← h1 _ (area_anti vert N), mul_comm, ← List.sum_map_mul_left]
    apply List.sum_pos
    · intro x hx
      obtain ⟨t, ht, rfl⟩ := List.mem_map.1 hx
      rw [area_tri, mul_comm]
      exact (hpos t ht).choose_spec.2.2
    · intro h
      have : ts.length = 0 := by simpa using congrArg List.length h
      omega
  · rw [hb, List.length_map, h3]
  · intro f hf
    rw [hb] at hf
    obtain ⟨t, ht, rfl⟩ := List.mem_map.1 hf
    obtain ⟨i0, i1, i2, -⟩ := h2 t ht
    unfold mk
    split_ifs
    · exact ⟨i0, i2, i1⟩
    · exact ⟨i0, i1, i2⟩

private theorem next_lt {n i : ℕ} (h : i < n) : next n i < n := by unfold next; split_ifs <;> omega

private theorem rotate_range (n : ℕ) : (List.range n).rotate 1 = (List.range n).map (next n) := by
  apply List.ext_getElem
  · simp
  · intro i h1 h2
    rw [List.getElem_rotate]
    simp only [List.length_map, List.length_range, List.length_rotate] at h1 h2
    simp only [List.getElem_range, List.getElem_map, List.length_range, next]
    split_ifs with h
    · rw [h, Nat.mod_self]
    · exact Nat.mod_eq_of_lt (by omega)

private theorem loop_range (g : ℕ → ℕ → ℝ) (n : ℕ) :
    loopSum g (List.range n) = ((List.range n).map fun i => g i (next n i)).sum := by
  unfold loopSum
  rw [rotate_range]
  congr 1
  generalize List.range n = l
  induction l with
  | nil => rfl
  | cons a l ih => simp [ih]

private theorem loop_range' (g : ℕ → ℕ → ℝ) (n : ℕ) :
    loopSum g (List.range' n n) = ((List.range n).map fun i => g (i + n) (next n i + n)).sum := by
  have : List.range' n n = (List.range n).map (· + n) := by
    rw [List.range'_eq_map_range]
    apply List.map_congr_left
    intro i _
    rw [add_comm]
  unfold loopSum
  rw [this, ← List.map_rotate, rotate_range]
  congr 1
  generalize List.range n = l
  induction l with
  | nil => rfl
  | cons a l ih => simp [ih]

private theorem sum_next (h : ℕ → ℝ) (n : ℕ) : ((List.range n).map fun i => h (next n i)).sum = ((List.range n).map h).sum := by
  have : ((List.range n).map fun i => h (next n i)) = ((List.range n).rotate 1).map h := by
    rw [rotate_range, List.map_map]; rfl
  rw [this]
  exact ((List.rotate_perm _ 1).map h).sum_eq

/-- The first triangle is three consecutive vertices. -/
private theorem scan_first (τ : ℝ) (vert : ℕ → Vec3 ℝ) (nrm : Vec3 ℝ) (n : ℕ) (hn : 3 ≤ n) (R : List ℕ) :
    ∀ (A : List ℕ) (t : ℕ × ℕ × ℕ), A ++ R = List.range n → (2 ≤ R.length ∨ (t.1 < n ∧ t.2.1 = next n t.1 ∧ t.2.2 = next n t.2.1)) →
    (scan τ vert nrm (n - 1) A R t).2.1.1 < n ∧
    (scan τ vert nrm (n - 1) A R t).2.1.2.1 = next n (scan τ vert nrm (n - 1) A R t).2.1.1 ∧
    (scan τ vert nrm (n - 1) A R t).2.1.2.2 = next n (scan τ vert nrm (n - 1) A R t).2.1.2.1 := by
  induction R with
  | nil =>
    intro A t _ h
    rcases h with h | h
    · simp at h
    · simpa [scan] using h
  | cons v R ih =>
    intro A t hA h
    cases R with
    | nil =>
      rcases h with h | h
      · simp at h
      · simpa [scan] using h
    | cons p B =>
      have hlen : A.length + 2 ≤ n := by
        have := congrArg List.length hA
        simp at this; omega
      have hv : v = A.length := by
        have := congrArg (fun l => l[A.length]?) hA
        simpa [List.getElem?_append, List.getElem?_range (show A.length < n by omega)] using this
      have hp : p = A.length + 1 := by
        have := congrArg (fun l => l[A.length + 1]?) hA
        simpa [List.getElem?_append, List.getElem?_range (show A.length + 1 < n by omega)] using this
      have hpre : A.getLastD (n - 1) = if A.length = 0 then n - 1 else A.length - 1 := by
        rcases List.eq_nil_or_concat A with rfl | ⟨A', a, rfl⟩
        · simp
        · rw [List.concat_eq_append] at hA ⊢
          rw [last_concat]
          have := congrArg (fun l => l[A'.length]?) hA
          simp only [List.append_assoc, List.getElem?_append_right (le_refl A'.length)] at this
          simp only [Nat.sub_self, List.cons_append, List.getElem?_cons_zero] at this
          rw [List.getElem?_range (by simp at hlen; omega)] at this
          simp at this ⊢
          exact this
      have htest : A.getLastD (n - 1) < n ∧ v = next n (A.getLastD (n - 1)) ∧ p = next n v := by
        rw [hpre, hv, hp]
        unfold next
        split_ifs <;> omega
      unfold scan
      dsimp only
      split_ifs with he
      · exact htest
      · exact ih (A ++ [v]) (A.getLastD (n - 1), v, p) (by rw [← hA]; simp) (.inr htest)

private theorem run_first (τ : ℝ) (vert : ℕ → Vec3 ℝ) (nrm : Vec3 ℝ) (n : ℕ) (hn : 3 ≤ n) :
    ∃ a ts, a < n ∧ run τ vert nrm (List.range n).length (List.range n) = (a, next n a, next n (next n a)) :: ts := by
  obtain ⟨m, rfl⟩ := Nat.exists_eq_add_of_le' hn
  have hl : (List.range (m + 3)).getLastD 0 = m + 3 - 1 := by
    rw [List.range_succ, last_concat]; rfl
  rw [List.length_range, show m + 3 = (m + 2) + 1 from rfl, run, if_pos (by simp)]
  dsimp only
  rw [show m + 2 + 1 = m + 3 from rfl, hl]
  obtain ⟨h1, h2, h3⟩ := scan_first τ vert nrm (m + 3) hn (List.range (m + 3)) [] (0, 0, 0) rfl (.inl (by simp))
  generalize scan τ vert nrm (m + 3 - 1) [] (List.range (m + 3)) (0, 0, 0) = r at *
  refine ⟨r.2.1.1, run τ vert nrm (m + 2) r.2.2, h1, ?_⟩
  congr 1
  exact Prod.ext rfl (Prod.ext h2 (by rw [h3, h2]))

private theorem flipped_mk (τ : ℝ) (vert : ℕ → Vec3 ℝ) (n a : ℕ) (hn : 3 ≤ n) (ha : a < n) (fl : Bool) :
    flipped n (mk τ vert fl a (next n a) (next n (next n a))) = some (!fl) := by
  have hne : next n (next n a) ≠ next n a := by
    unfold next
    split_ifs <;> omega
  cases fl
  · simp [flipped, mk, PH.mkFace]
  · simp [flipped, mk, PH.mkFace, hne]

private theorem sgn_not (b : Bool) : sgn (!b) = - sgn b := by cases b <;> simp [sgn]

private theorem loop_areaVec (w : Vec3 ℝ) (b : List (Vec3 ℝ)) (vert : ℕ → Vec3 ℝ) (h : (List.range b.length).map vert = b) :
    loopSum (area vert w) (List.range b.length) = w.inner (areaVec b) := by
  unfold areaVec loopSum
  conv_rhs => rw [← h, ← List.map_rotate]
  generalize List.range b.length = l
  generalize l.rotate 1 = m
  induction l generalizing m with
  | nil => simp [zeo]
  | cons a l ih =>
    cases m with
    | nil => simp [zeo]
    | cons c m =>
      simp only [List.zipWith_cons_cons, List.sum_cons, List.map_cons, List.foldr_cons]
      rw [ih m]
      simp only [area, zeo]; ring

private theorem prismVert_bottom (b : List (Vec3 ℝ)) (s : Vec3 ℝ) : (List.range b.length).map (prismVert b s) = b := by
  apply List.ext_getElem
  · simp
  · intro i h1 h2
    simp [prismVert, h2]

private theorem prismVert_top (b : List (Vec3 ℝ)) (s : Vec3 ℝ) (i : ℕ) (h : i < b.length) :
    prismVert b s (i + b.length) = (prismVert b s i).add s := by
  simp [prismVert, h]

private theorem prismVert_top' (b : List (Vec3 ℝ)) (s : Vec3 ℝ) :
    (List.range' b.length b.length).map (prismVert b s) = b.map (·.add s) := by
  have h := prismVert_bottom b s
  have : List.range' b.length b.length = (List.range b.length).map (· + b.length) := by
    rw [List.range'_eq_map_range]
    apply List.map_congr_left
    intro i _
    rw [add_comm]
  rw [this, List.map_map]
  conv_rhs => rw [← h, List.map_map]
  apply List.map_congr_left
  intro i hi
  exact prismVert_top b s i (List.mem_range.1 hi)

private theorem rev_rev (s : Vec3 ℝ) : s.rev.rev = s := by vring

set_option maxHeartbeats 1000000 in
/-- A prism on a planar loop that the triangulation cuts into ears, with a shift out of the plane: it has the vertices
of the loop and the shifted ones, and `4 (n - 1)` faces that form a closed, consistently oriented surface which faces
outwards: its volume is the area of the loop times the height.  Partial: on other loops the surface need not be closed,
see `C81_prism_open`; strictly convex loops are given by `C81_prism_convex`. -/
theorem C81_prism_partial (τ : ℝ) (junk : Tri3 ℝ) (b : List (Vec3 ℝ)) (s N : Vec3 ℝ) (d : ℝ) (hb : 3 ≤ b.length)
    (hN : N.inner N = 1) (hd : ∀ p ∈ b, N.inner p = d) (hs : s.inner N ≠ 0)
    (hreg : (Loop.run τ (Loop.norm τ b) junk b.length b).2.1 = true) :
    ∃ ph, prism τ b s = .ok ph ∧ ph.nv = 2 * b.length ∧
      (∀ i (h : i < b.length), ph.vert i = b[i] ∧ ph.vert (i + b.length) = b[i].add s) ∧
      ph.face.length = 4 * (b.length - 1) ∧ Valid ph ∧ Closed (faceIdx ph) ∧
      ph.volume = |s.inner (areaVec b)| / 2 ∧ 0 < ph.volume := by
  have hne : b ≠ [] := by rintro rfl; simp at hb
  set n := b.length with hn
  set vert := prismVert b s with hvert
  have hmap : (List.range n).map vert = b := prismVert_bottom b s
  have htop : (List.range' n n).map vert = b.map (·.add s) := prismVert_top' b s
  have hmem : ∀ i, i < n → vert i ∈ b := by
    intro i hi
    rw [← hmap]
    exact List.mem_map.2 ⟨i, List.mem_range.2 hi, rfl⟩
  have hvt : ∀ i, i < n → vert (i + n) = (vert i).add s := fun i hi => prismVert_top b s i hi
  have hNr : s.rev.inner N = - s.inner N := by simp only [zeo]; ring
  obtain ⟨fl, b0, b1, b2, b3, b4, b5, b6, b7⟩ := bottom_spec τ junk vert (List.range n) s.rev N d (by simpa using hb) hN
    (fun i hi => hd _ (hmem i (List.mem_range.1 hi))) (by rw [hNr]; simpa using hs) (by rw [hmap, List.length_range]; exact hreg)
  obtain ⟨fl', t0, t1, t2, t3, t4, t5, t6, t7⟩ := bottom_spec τ junk vert (List.range' n n) s.rev.rev N (d + s.inner N)
    (by simpa using hb) hN
    (fun i hi => by
      rw [List.mem_range'_1] at hi
      have h1 := hvt (i - n) (by omega)
      rw [Nat.sub_add_cancel hi.1] at h1
      rw [h1, ← hd _ (hmem (i - n) (by omega))]
      simp only [zeo]; ring)
    (by rw [rev_rev]; exact hs)
    (by rw [htop, List.length_range', norm_shift τ b s hne, run_shift]; exact hreg)
  rw [hmap] at b0 b5
  rw [htop, norm_shift τ b s hne, rev_rev] at t0
  rw [rev_rev] at t2 t3 t6 t7
  obtain ⟨a, ts, ha, hrun⟩ := run_first τ vert (Loop.norm τ ((List.range n).map vert)) n hb
  rw [hrun, List.map_cons] at b1
  have hfl' : fl' = !fl := by
    have hm : N.inner (Loop.norm τ b) ≠ 0 := by
      intro h
      rw [h, mul_zero] at b5
      exact lt_irrefl _ b5
    rw [hNr] at b0
    have hprod : s.inner N * N.inner (Loop.norm τ b) ≠ 0 := mul_ne_zero hs hm
    cases fl <;> cases fl' <;> simp only [Bool.not_true, Bool.not_false, true_iff, iff_true, false_iff, reduceCtorEq] at b0 t0 ⊢
    · exact hprod (le_antisymm (by nlinarith) (by nlinarith))
    · nlinarith
  subst hfl'
  refine ⟨⟨n * 2, vert, bottom τ vert (List.range n) s.rev ++ bottom τ vert (List.range' n n) s ++
    prismSides τ vert n (!fl)⟩, ?_, mul_comm _ _, ?_, ?_, ?_, ?_, ?_⟩
  · unfold prism
    simp only [← hn, ← hvert]
    rw [b1]
    dsimp only
    rw [flipped_mk τ vert n a hb ha, rev_rev]
  · intro i h
    have h1 : vert i = b[i] := by simp [hvert, prismVert, h]
    exact ⟨h1, (hvt i h).trans (by rw [h1])⟩
  · have : (prismSides τ vert n (!fl)).length = 2 * n := by
      unfold prismSides
      rw [List.length_flatMap]
      simp [mul_comm]
    simp only [List.length_append, b6, t6, this, List.length_range, List.length_range']
    omega
  · intro f hf
    dsimp only at hf ⊢
    rw [List.mem_append, List.mem_append] at hf
    rcases hf with (hf | hf) | hf
    · obtain ⟨h0, h1, h2⟩ := b7 f hf
      rw [List.mem_range] at h0 h1 h2
      omega
    · obtain ⟨h0, h1, h2⟩ := t7 f hf
      rw [List.mem_range'_1] at h0 h1 h2
      omega
    · unfold prismSides at hf
      rw [List.mem_flatMap] at hf
      obtain ⟨i, hi, hf⟩ := hf
      have hi := List.mem_range.1 hi
      have hi' := next_lt hi
      simp only [List.mem_cons, List.not_mem_nil, or_false, mk] at hf
      rcases hf with rfl | rfl <;> (unfold PH.mkFace; split_ifs <;> dsimp only <;> omega)
  · apply closed_of_sum
    intro g hg
    have hfi : (faceIdx ⟨n * 2, vert, bottom τ vert (List.range n) s.rev ++ bottom τ vert (List.range' n n) s ++
        prismSides τ vert n (!fl)⟩).map (triSum g) =
        (bottom τ vert (List.range n) s.rev ++ bottom τ vert (List.range' n n) s ++ prismSides τ vert n (!fl)).map (fsum g) := by
      unfold faceIdx
      rw [List.map_map]; rfl
    have hsides : ((prismSides τ vert n (!fl)).map (fsum g)).sum = sgn (!fl) * (loopSum g (List.range n) - loopSum g (List.range' n n)) := by
      unfold prismSides
      rw [List.map_flatMap, loop_range, loop_range']
      have e1 : ((List.range n).map fun i => g (next n i) (next n i + n)).sum = ((List.range n).map fun i => g i (i + n)).sum :=
        sum_next (fun i => g i (i + n)) n
      have e2 : ∀ l : List ℕ, (l.flatMap fun i => ([mk τ vert (!fl) i (next n i) (next n i + n),
          mk τ vert (!fl) i (next n i + n) (i + n)] : List (Face ℝ)).map (fsum g)).sum =
          sgn (!fl) * ((l.map fun i => g i (next n i)).sum - (l.map fun i => g (i + n) (next n i + n)).sum +
            ((l.map fun i => g (next n i) (next n i + n)).sum - (l.map fun i => g i (i + n)).sum)) := by
        intro l
        induction l with
        | nil => simp
        | cons i l ih =>
          rw [List.flatMap_cons, List.sum_append, ih]
          simp only [List.map_cons, List.map_nil, List.sum_cons, List.sum_nil, fsum_mk τ vert g hg, triSum]
          rw [hg i (next n i + n), hg (next n i + n) (i + n), hg (i + n) i]; ring
      rw [e2, e1]; ring
    rw [hfi, List.map_append, List.map_append, List.sum_append, List.sum_append, b2 g hg, t2 g hg, hsides, sgn_not]
    ring
  · have hvol : PH.volume ⟨n * 2, vert, bottom τ vert (List.range n) s.rev ++ bottom τ vert (List.range' n n) s ++
        prismSides τ vert n (!fl)⟩ = - sgn fl * (s.inner N * loopSum (area vert N) (List.range n)) / 2 := by
      rw [volume_sum]
      dsimp only
      have hsides : ((prismSides τ vert n (!fl)).map (dv vert)).sum = sgn (!fl) * (2 * loopSum (area vert s) (List.range n)) := by
        unfold prismSides
        rw [List.map_flatMap, loop_range]
        have e2 : ∀ l : List ℕ, (∀ i ∈ l, i < n) → (l.flatMap fun i => ([mk τ vert (!fl) i (next n i) (next n i + n),
            mk τ vert (!fl) i (next n i + n) (i + n)] : List (Face ℝ)).map (dv vert)).sum =
            sgn (!fl) * (2 * (l.map fun i => area vert s i (next n i)).sum) := by
          intro l hl
          induction l with
          | nil => simp
          | cons i l ih =>
            have hi := hl i (by simp)
            rw [List.flatMap_cons, List.sum_append, ih (fun j hj => hl j (by simp [hj]))]
            simp only [List.map_cons, List.map_nil, List.sum_cons, List.sum_nil, dv_mk, hvt i hi, hvt _ (next_lt hi)]
            have e : ∀ p q : Vec3 ℝ, det3 p q (q.add s) + det3 p (q.add s) (p.add s) = 2 * s.inner (p.outer q) := by
              intro p q
              simp only [det3, zeo]; ring
            have e := e (vert i) (vert (next n i))
            unfold area
            linear_combination sgn (!fl) * e
        exact e2 _ fun i hi => List.mem_range.1 hi
      have htopA : loopSum (area vert N) (List.range' n n) = loopSum (area vert N) (List.range n) := by
        rw [loop_range', loop_range]
        have e1 := sum_next (fun i => N.inner (s.outer (vert i))) n
        have e2 : ∀ l : List ℕ, (∀ i ∈ l, i < n) → (l.map fun i => area vert N (i + n) (next n i + n)).sum =
            (l.map fun i => area vert N i (next n i)).sum + ((l.map fun i => N.inner (s.outer (vert (next n i)))).sum -
              (l.map fun i => N.inner (s.outer (vert i))).sum) := by
          intro l hl
          induction l with
          | nil => simp
          | cons i l ih =>
            have hi := hl i (by simp)
            simp only [List.map_cons, List.sum_cons]
            rw [ih (fun j hj => hl j (by simp [hj]))]
            have : area vert N (i + n) (next n i + n) = area vert N i (next n i) +
                (N.inner (s.outer (vert (next n i))) - N.inner (s.outer (vert i))) := by
              unfold area
              rw [hvt i hi, hvt _ (next_lt hi)]
              simp only [zeo]; ring
            rw [this]; ring
        rw [e2 _ fun i hi => List.mem_range.1 hi, e1]; ring
      rw [List.map_append, List.map_append, List.sum_append, List.sum_append, b3, t3, hsides, htopA, b4 s, sgn_not]
      ring
    have hA : s.inner (areaVec b) = s.inner N * loopSum (area vert N) (List.range n) := by
      rw [← b4 s, loop_areaVec s b vert hmap]
    rw [hvol, hA]
    have hpos : 0 < - sgn fl * (s.inner N * loopSum (area vert N) (List.range n)) := by
      set A := loopSum (area vert N) (List.range n) with hAdef
      set m := N.inner (Loop.norm τ b) with hm
      rw [hNr] at b0
      have hm0 : m ≠ 0 := by intro h; rw [h, mul_zero] at b5; exact lt_irrefl _ b5
      have hsm : s.inner N * m ≠ 0 := mul_ne_zero hs hm0
      have hmm : 0 < m * m := mul_self_pos.2 hm0
      cases fl
      · simp only [false_iff, not_lt, reduceCtorEq] at b0
        have h1 : s.inner N * m < 0 := lt_of_le_of_ne (by linarith) hsm
        simp only [sgn]
        have : (s.inner N * A) * (m * m) < 0 := by
          have : (s.inner N * A) * (m * m) = (s.inner N * m) * (A * m) := by ring
          rw [this]; exact mul_neg_of_neg_of_pos h1 b5
        have : s.inner N * A < 0 := by by_contra hc; nlinarith
        simp; linarith
      · simp only [true_iff] at b0
        have h1 : 0 < s.inner N * m := by linarith
        simp only [sgn]
        have : 0 < (s.inner N * A) * (m * m) := by
          have : (s.inner N * A) * (m * m) = (s.inner N * m) * (A * m) := by ring
          rw [this]; exact mul_pos h1 b5
        have : 0 < s.inner N * A := by by_contra hc; nlinarith
        simp; linarith
    refine ⟨?_, by linarith⟩
    congr 1
    rw [← abs_of_pos hpos, abs_mul]
    cases fl <;> simp [sgn]

private theorem bottom_length (τ : ℝ) (vert : ℕ → Vec3 ℝ) (L : List ℕ) (ref : Vec3 ℝ) :
    (bottom τ vert L ref).length = L.length - 2 := by
  unfold bottom
  rw [List.length_map]
  by_cases hL : L = []
  · subst hL; rfl
  · have hL' : L.map vert ≠ [] := by simpa using hL
    obtain ⟨ts, h1, h2, -⟩ := C42_count τ (⟨.zero, .zero, .zero, .zero⟩ : Tri3 ℝ) (L.map vert) hL'
    unfold Loop.triangulate at h1
    rw [if_neg hL', List.length_map, run_map] at h1
    cases h1
    simpa using h2

private theorem bottom_few (τ : ℝ) (vert : ℕ → Vec3 ℝ) (L : List ℕ) (ref : Vec3 ℝ) (h : L.length < 3) : bottom τ vert L ref = [] := by
  have := bottom_length τ vert L ref
  exact List.length_eq_zero_iff.1 (by omega)

private theorem bottom_first (τ : ℝ) (vert : ℕ → Vec3 ℝ) (n : ℕ) (ref : Vec3 ℝ) (h : 3 ≤ n) :
    ∃ a fl fs, a < n ∧ bottom τ vert (List.range n) ref = mk τ vert fl a (next n a) (next n (next n a)) :: fs := by
  obtain ⟨a, ts, ha, hrun⟩ := run_first τ vert (Loop.norm τ ((List.range n).map vert)) n h
  refine ⟨a, decide (ref.inner (PH.mkFace τ vert a (next n a) (next n (next n a))).norm < 0),
    ts.map fun t => if ref.inner (PH.mkFace τ vert t.1 t.2.1 t.2.2).norm < 0 then PH.mkFace τ vert t.1 t.2.2 t.2.1
      else PH.mkFace τ vert t.1 t.2.1 t.2.2, ha, ?_⟩
  unfold bottom
  rw [hrun, List.map_cons]
  congr 1
  simp [mk]

/-- With less than three vertices a face that was not stored is read; with three or more a prism is always made, with
the vertices asked for and `4 (n - 1)` faces on them. -/
theorem C81_prism_total (τ : ℝ) (b : List (Vec3 ℝ)) (s : Vec3 ℝ) :
    (b.length < 3 → prism τ b s = .error .undef) ∧
    (3 ≤ b.length → ∃ ph, prism τ b s = .ok ph ∧ ph.nv = 2 * b.length ∧ ph.face.length = 4 * (b.length - 1)) := by
  constructor
  · intro h
    unfold prism
    dsimp only
    rw [bottom_few _ _ _ _ (by simpa using h)]
  · intro h
    obtain ⟨a, fl, fs, ha, e⟩ := bottom_first τ (prismVert b s) b.length s.rev h
    have hb := bottom_length τ (prismVert b s) (List.range b.length) s.rev
    have ht := bottom_length τ (prismVert b s) (List.range' b.length b.length) s.rev.rev
    unfold prism
    dsimp only
    rw [e] at hb ⊢
    dsimp only
    rw [flipped_mk τ _ _ a h ha]
    refine ⟨_, rfl, mul_comm _ _, ?_⟩
    have hs : ∀ fl, (prismSides τ (prismVert b s) b.length fl).length = 2 * b.length := by
      intro fl
      unfold prismSides
      rw [List.length_flatMap]
      simp [mul_comm]
    simp only [List.length_cons, List.length_range, List.length_range'] at hb ht
    simp only [List.length_append, List.length_cons, ht, hs]
    omega

/-- The same for pyramids: `n + 1` vertices and `2 (n - 1)` faces. -/
theorem C81_pyramid_total (τ : ℝ) (b : List (Vec3 ℝ)) (v : Vec3 ℝ) :
    (b.length < 3 → pyramid τ b v = .error .undef) ∧
    (3 ≤ b.length → ∃ ph, pyramid τ b v = .ok ph ∧ ph.nv = b.length + 1 ∧ ph.face.length = 2 * (b.length - 1)) := by
  constructor
  · intro h
    unfold pyramid
    dsimp only
    rw [bottom_few _ _ _ _ (by simpa using h)]
  · intro h
    obtain ⟨a, fl, fs, ha, e⟩ := bottom_first τ (pyramidVert b v) b.length ((pyramidVert b v 0).sub v) h
    have hb := bottom_length τ (pyramidVert b v) (List.range b.length) ((pyramidVert b v 0).sub v)
    unfold pyramid
    dsimp only
    rw [e] at hb ⊢
    dsimp only
    rw [flipped_mk τ _ _ a h ha]
    refine ⟨_, rfl, rfl, ?_⟩
    simp only [List.length_cons, List.length_range] at hb
    simp only [List.length_append, List.length_cons, pyramidSides, List.length_map, List.length_range]
    omega

set_option maxHeartbeats 1000000 in
/-- A pyramid on a planar loop that the triangulation cuts into ears, with an apex out of the plane: it has the vertices
of the loop and the apex, and `2 (n - 1)` faces that form a closed, consistently oriented surface which faces outwards:
its volume is a third of the area of the loop times the height.  Partial: the loops as in `C81_prism_partial`. -/
theorem C81_pyramid_partial (τ : ℝ) (junk : Tri3 ℝ) (b : List (Vec3 ℝ)) (v N : Vec3 ℝ) (d : ℝ) (hb : 3 ≤ b.length)
    (hN : N.inner N = 1) (hd : ∀ p ∈ b, N.inner p = d) (hv : N.inner v ≠ d)
    (hreg : (Loop.run τ (Loop.norm τ b) junk b.length b).2.1 = true) :
    ∃ ph, pyramid τ b v = .ok ph ∧ ph.nv = b.length + 1 ∧
      (∀ i (h : i < b.length), ph.vert i = b[i]) ∧ ph.vert b.length = v ∧
      ph.face.length = 2 * (b.length - 1) ∧ Valid ph ∧ Closed (faceIdx ph) ∧
      (∀ p ∈ b, ph.volume = |(v.sub p).inner (areaVec b)| / 6) ∧ 0 < ph.volume := by
  set n := b.length with hn
  set vert := pyramidVert b v with hvert
  have hbi : ∀ i (h : i < b.length), vert i = b[i] := fun i h => by simp [hvert, pyramidVert, h]
  have hmap : (List.range n).map vert = b := by
    apply List.ext_getElem
    · simp [hn]
    · intro i h1 h2
      simp [hbi i h2]
  have hmem : ∀ i, i < n → vert i ∈ b := fun i hi => by rw [hbi i hi]; exact List.getElem_mem hi
  have hvn : vert n = v := by simp [hvert, pyramidVert, hn]
  set ref := (vert 0).sub v with href
  have hNr : ref.inner N = d - N.inner v := by
    rw [← hd _ (hmem 0 (by omega)), href]
    simp only [zeo]; ring
  have hr0 : ref.inner N ≠ 0 := by rw [hNr]; exact sub_ne_zero.2 (Ne.symm hv)
  obtain ⟨fl, b0, b1, b2, b3, b4, b5, b6, b7⟩ := bottom_spec τ junk vert (List.range n) ref N d (by simpa using hb) hN
    (fun i hi => hd _ (hmem i (List.mem_range.1 hi))) hr0 (by rw [hmap, List.length_range]; exact hreg)
  rw [hmap] at b0 b5
  obtain ⟨a, ts, ha, hrun⟩ := run_first τ vert (Loop.norm τ ((List.range n).map vert)) n hb
  rw [hrun, List.map_cons] at b1
  refine ⟨⟨n + 1, vert, bottom τ vert (List.range n) ref ++ pyramidSides τ vert n (!fl)⟩, ?_, rfl, hbi, hvn, ?_, ?_, ?_, ?_⟩
  · unfold pyramid
    simp only [← hn, ← hvert, ← href]
    rw [b1]
    dsimp only
    rw [flipped_mk τ vert n a hb ha]
  · simp only [List.length_append, b6, List.length_range, pyramidSides, List.length_map]
    omega
  · intro f hf
    dsimp only at hf ⊢
    rw [List.mem_append] at hf
    rcases hf with hf | hf
    · obtain ⟨h0, h1, h2⟩ := b7 f hf
      rw [List.mem_range] at h0 h1 h2
      omega
    · unfold pyramidSides at hf
      obtain ⟨i, hi, rfl⟩ := List.mem_map.1 hf
      have hi := List.mem_range.1 hi
      have hi' := next_lt hi
      unfold mk PH.mkFace
      split_ifs <;> dsimp only <;> omega
  · apply closed_of_sum
    intro g hg
    have hfi : (faceIdx ⟨n + 1, vert, bottom τ vert (List.range n) ref ++ pyramidSides τ vert n (!fl)⟩).map (triSum g) =
        (bottom τ vert (List.range n) ref ++ pyramidSides τ vert n (!fl)).map (fsum g) := by
      unfold faceIdx
      rw [List.map_map]; rfl
    have hsides : ((pyramidSides τ vert n (!fl)).map (fsum g)).sum = sgn (!fl) * loopSum g (List.range n) := by
      unfold pyramidSides
      rw [List.map_map, loop_range]
      have e1 : ((List.range n).map fun i => g (next n i) n).sum = ((List.range n).map fun i => g i n).sum :=
        sum_next (fun i => g i n) n
      have e2 : ∀ l : List ℕ, (l.map (fsum g ∘ fun i => mk τ vert (!fl) i (next n i) n)).sum =
          sgn (!fl) * ((l.map fun i => g i (next n i)).sum +
            ((l.map fun i => g (next n i) n).sum - (l.map fun i => g i n).sum)) := by
        intro l
        induction l with
        | nil => simp
        | cons i l ih =>
          simp only [List.map_cons, List.sum_cons, Function.comp_apply, fsum_mk τ vert g hg, triSum]
          rw [ih, hg n i]; ring
      rw [e2, e1]; ring
    rw [hfi, List.map_append, List.sum_append, b2 g hg, hsides, sgn_not]
    ring
  · have hvol : PH.volume ⟨n + 1, vert, bottom τ vert (List.range n) ref ++ pyramidSides τ vert n (!fl)⟩ =
        sgn fl * (ref.inner N * loopSum (area vert N) (List.range n)) / 6 := by
      rw [volume_sum]
      dsimp only
      have hsides : ((pyramidSides τ vert n (!fl)).map (dv vert)).sum = sgn (!fl) * loopSum (area vert v) (List.range n) := by
        unfold pyramidSides
        rw [List.map_map, loop_range, ← List.sum_map_mul_left]
        congr 1
        apply List.map_congr_left
        intro i _
        rw [Function.comp_apply, dv_mk, hvn]
        simp only [area, det3, zeo]; ring
      have hvN : v.inner N = N.inner v := by simp only [zeo]; ring
      rw [List.map_append, List.sum_append, b3, hsides, b4 v, sgn_not, hNr, hvN]
      ring
    have hA : ∀ p ∈ b, (v.sub p).inner (areaVec b) = - (ref.inner N * loopSum (area vert N) (List.range n)) := by
      intro p hp
      have hpN : (v.sub p).inner N = - ref.inner N := by
        rw [hNr, ← hd p hp]
        simp only [zeo]; ring
      rw [← loop_areaVec (v.sub p) b vert hmap, ← hn, b4, hpN]
      ring
    have hpos : 0 < sgn fl * (ref.inner N * loopSum (area vert N) (List.range n)) := by
      set A := loopSum (area vert N) (List.range n) with hAdef
      set m := N.inner (Loop.norm τ b) with hm
      have hm0 : m ≠ 0 := by intro h; rw [h, mul_zero] at b5; exact lt_irrefl _ b5
      have hsm : ref.inner N * m ≠ 0 := mul_ne_zero hr0 hm0
      have hmm : 0 < m * m := mul_self_pos.2 hm0
      have hprod : (ref.inner N * A) * (m * m) = (ref.inner N * m) * (A * m) := by ring
      cases fl
      · simp only [false_iff, not_lt, reduceCtorEq] at b0
        have h1 : 0 < ref.inner N * m := lt_of_le_of_ne b0 (Ne.symm hsm)
        have h2 := mul_pos h1 b5
        rw [← hprod] at h2
        have : 0 < ref.inner N * A := by by_contra hc; nlinarith
        simpa [sgn] using this
      · simp only [true_iff] at b0
        have h2 := mul_neg_of_neg_of_pos b0 b5
        rw [← hprod] at h2
        have : ref.inner N * A < 0 := by by_contra hc; nlinarith
        simpa [sgn] using this
    refine ⟨fun p hp => ?_, by rw [hvol]; linarith⟩
    rw [hvol, hA p hp, abs_neg, ← abs_of_pos hpos, abs_mul]
    congr 1
    cases fl <;> simp [sgn]

/-- Strictly convex loops, whose corners are not flat and keep the tolerance, carry prisms ... -/
theorem C81_prism_convex (τ : ℝ) (hτ : 0 ≤ τ) (hτ' : τ ≤ 1/4) (N : Vec3 ℝ) (L : List (Vec3 ℝ)) (z s : Vec3 ℝ)
    (h : StrictlyConvex N (L ++ [z])) (hl : 2 ≤ L.length)
    (hbig : ∀ a b c, InCycle (L ++ [z]) a b c → ¬ (Tri3.outerProd a b c).isTol τ)
    (hclear : ∀ a b q, [a, b, q].Sublist L → ∀ p ∈ Spec.triangle z a b, τ ≤ ed q p) (hs : s.inner N ≠ 0) :
    ∃ ph, prism τ (L ++ [z]) s = .ok ph ∧ Valid ph ∧ Closed (faceIdx ph) ∧
      ph.volume = |s.inner (areaVec (L ++ [z]))| / 2 ∧ 0 < ph.volume := by
  have hN : N.inner N = 1 := h.1
  obtain ⟨d, hd⟩ := h.2.1
  obtain ⟨ph, h1, -, -, -, h2⟩ := C81_prism_partial τ (⟨.zero, .zero, .zero, .zero⟩ : Tri3 ℝ) (L ++ [z]) s N d (by simp; omega) hN hd hs
    (C42_convex τ hτ hτ' (⟨.zero, .zero, .zero, .zero⟩ : Tri3 ℝ) N L z h hl hbig hclear).2
  exact ⟨ph, h1, h2⟩

/-- ... and pyramids. -/
theorem C81_pyramid_convex (τ : ℝ) (hτ : 0 ≤ τ) (hτ' : τ ≤ 1/4) (N : Vec3 ℝ) (L : List (Vec3 ℝ)) (z v : Vec3 ℝ)
    (h : StrictlyConvex N (L ++ [z])) (hl : 2 ≤ L.length)
    (hbig : ∀ a b c, InCycle (L ++ [z]) a b c → ¬ (Tri3.outerProd a b c).isTol τ)
    (hclear : ∀ a b q, [a, b, q].Sublist L → ∀ p ∈ Spec.triangle z a b, τ ≤ ed q p) (hv : N.inner v ≠ N.inner z) :
    ∃ ph, pyramid τ (L ++ [z]) v = .ok ph ∧ Valid ph ∧ Closed (faceIdx ph) ∧
      ph.volume = |(v.sub z).inner (areaVec (L ++ [z]))| / 6 ∧ 0 < ph.volume := by
  have hN : N.inner N = 1 := h.1
  obtain ⟨d, hd⟩ := h.2.1
  have hz : N.inner z = d := hd z (by simp)
  obtain ⟨ph, h1, -, -, -, -, h2, h3, h4, h5⟩ := C81_pyramid_partial τ (⟨.zero, .zero, .zero, .zero⟩ : Tri3 ℝ) (L ++ [z]) v N d (by simp; omega) hN hd
    (by rw [← hz]; exact hv) (C42_convex τ hτ hτ' (⟨.zero, .zero, .zero, .zero⟩ : Tri3 ℝ) N L z h hl hbig hclear).2
  exact ⟨ph, h1, h2, h3, h4 z (by simp), h5⟩

private theorem square_area : areaVec [⟨0, 0, 0⟩, ⟨1, 0, 0⟩, ⟨1, 1, 0⟩, (⟨0, 1, 0⟩ : Vec3 ℝ)] = ⟨0, 0, 2⟩ := by
  simp only [areaVec, List.rotate_cons_succ, List.rotate_zero, List.nil_append, List.cons_append, List.zipWith_cons_cons,
    List.zipWith_nil_left, List.foldr_cons, List.foldr_nil, zeo]
  norm_num

/-- At the tolerance of the library: a slanted block of height 3 on the unit square has the volume 3, and the pyramid
with the apex at the height 3 below it the volume 1. -/
example : (∃ ph, prism 1e-12 [⟨0, 0, 0⟩, ⟨1, 0, 0⟩, ⟨1, 1, 0⟩, ⟨0, 1, 0⟩] ⟨1, 0, 3⟩ = .ok ph ∧ ph.volume = 3) ∧
    ∃ ph, pyramid 1e-12 [⟨0, 0, 0⟩, ⟨1, 0, 0⟩, ⟨1, 1, 0⟩, ⟨0, 1, 0⟩] ⟨0, 0, -3⟩ = .ok ph ∧ ph.volume = 1 := by
  obtain ⟨L, z, N, rfl, rfl, rfl, h1, h2, h3, h4⟩ := C42_square
  obtain ⟨ph, e1, -, -, e2, -⟩ := C81_prism_convex 1e-12 (by norm_num) (by norm_num) _ _ _ ⟨1, 0, 3⟩ h1 h2 h3 h4
    (by simp [zeo])
  obtain ⟨ph', e1', -, -, e2', -⟩ := C81_pyramid_convex 1e-12 (by norm_num) (by norm_num) _ _ _ ⟨0, 0, -3⟩ h1 h2 h3 h4
    (by simp [zeo])
  simp only [List.cons_append, List.nil_append] at e1 e1' e2 e2'
  rw [square_area] at e2 e2'
  refine ⟨⟨ph, e1, ?_⟩, ⟨ph', e1', ?_⟩⟩
  · rw [e2]; simp [zeo]
  · rw [e2']; simp [zeo]; norm_num

private theorem not_ear (τ : ℝ) (a b c : Vec3 ℝ) (o : List (Vec3 ℝ)) : ¬ Loop.isEar τ .zero a b c o := by
  rintro ⟨h, -⟩
  simp [zeo] at h

private theorem mid_norm (τ : ℝ) (hτ : 0 ≤ τ) :
    Loop.norm τ [⟨0, 1/2, 0⟩, ⟨0, 0, 0⟩, ⟨1, 0, 0⟩, ⟨1, 1, 0⟩, (⟨0, 1, 0⟩ : Vec3 ℝ)] = .zero := by
  have hi : Loop.minXIdx [⟨0, 1/2, 0⟩, ⟨0, 0, 0⟩, ⟨1, 0, 0⟩, ⟨1, 1, 0⟩, (⟨0, 1, 0⟩ : Vec3 ℝ)] = 0 := by
    simp [Loop.minXIdx, List.zipIdx]; norm_num
  unfold Loop.norm
  rw [hi]
  simp only [List.rotate_zero, List.headD_cons, List.tail_cons]
  have e : ([⟨0, 1/2, 0⟩, ⟨0, 0, 0⟩, ⟨1, 0, 0⟩, ⟨1, 1, 0⟩, (⟨0, 1, 0⟩ : Vec3 ℝ)] : List (Vec3 ℝ)).getLastD ⟨0, 1/2, 0⟩ = ⟨0, 1, 0⟩ := rfl
  rw [e]
  have e2 : (Vec3.sub (⟨0, 0, 0⟩ : Vec3 ℝ) ⟨0, 1/2, 0⟩).outer (Vec3.sub ⟨0, 1, 0⟩ ⟨0, 1/2, 0⟩) = .zero := by
    ext <;> simp [zeo]
  rw [e2]
  simp [Vec3.normalize, Vec3.isTol, zIsTol, Vec3.zero, hτ]

/-- The prism on the unit square with the midpoint of its left side as first vertex is made, but its surface is not
closed: the faces of the bottom overlap and leave a part of it open. -/
theorem C81_prism_open (τ : ℝ) (hτ : 0 ≤ τ) :
    ∃ ph, prism τ [⟨0, 1/2, 0⟩, ⟨0, 0, 0⟩, ⟨1, 0, 0⟩, ⟨1, 1, 0⟩, ⟨0, 1, 0⟩] ⟨0, 0, 1⟩ = .ok ph ∧ ¬ Closed (faceIdx ph) := by
  set b : List (Vec3 ℝ) := [⟨0, 1/2, 0⟩, ⟨0, 0, 0⟩, ⟨1, 0, 0⟩, ⟨1, 1, 0⟩, ⟨0, 1, 0⟩] with hb
  set s : Vec3 ℝ := ⟨0, 0, 1⟩ with hs
  have hmap := prismVert_bottom b s
  have htop := prismVert_top' b s
  have hlen : b.length = 5 := rfl
  rw [hlen] at hmap htop
  have hrun : ∀ (v : ℕ → Vec3 ℝ) (i : ℕ), run τ v .zero 5 [i, i + 1, i + 2, i + 3, i + 4] =
      [(i + 2, i + 3, i + 4), (i + 1, i + 2, i + 3), (i, i + 1, i + 2)] := by
    intro v i
    simp [run, scan, not_ear]
  have h0 : ∀ ref, ∃ f1 f2 f3 : Bool, bottom τ (prismVert b s) (List.range 5) ref =
      [mk τ (prismVert b s) f1 2 3 4, mk τ (prismVert b s) f2 1 2 3, mk τ (prismVert b s) f3 0 1 2] := by
    intro ref
    refine ⟨decide (ref.inner (PH.mkFace τ (prismVert b s) 2 3 4).norm < 0),
      decide (ref.inner (PH.mkFace τ (prismVert b s) 1 2 3).norm < 0),
      decide (ref.inner (PH.mkFace τ (prismVert b s) 0 1 2).norm < 0), ?_⟩
    unfold bottom
    rw [hmap, hb, mid_norm τ hτ, ← hb, show List.range 5 = [0, 0 + 1, 0 + 2, 0 + 3, 0 + 4] from rfl]
    rw [show [0, 0 + 1, 0 + 2, 0 + 3, 0 + 4].length = 5 from rfl, hrun]
    simp [mk]
  have h5 : ∀ ref, ∃ f1 f2 f3 : Bool, bottom τ (prismVert b s) (List.range' 5 5) ref =
      [mk τ (prismVert b s) f1 7 8 9, mk τ (prismVert b s) f2 6 7 8, mk τ (prismVert b s) f3 5 6 7] := by
    intro ref
    refine ⟨decide (ref.inner (PH.mkFace τ (prismVert b s) 7 8 9).norm < 0),
      decide (ref.inner (PH.mkFace τ (prismVert b s) 6 7 8).norm < 0),
      decide (ref.inner (PH.mkFace τ (prismVert b s) 5 6 7).norm < 0), ?_⟩
    unfold bottom
    rw [htop, norm_shift τ b s (by simp [hb]), hb, mid_norm τ hτ, ← hb,
      show List.range' 5 5 = [5, 5 + 1, 5 + 2, 5 + 3, 5 + 4] from rfl]
    rw [show [5, 5 + 1, 5 + 2, 5 + 3, 5 + 4].length = 5 from rfl, hrun]
    simp [mk]
  obtain ⟨f1, f2, f3, e0⟩ := h0 s.rev
  obtain ⟨f5, f6, f7, e5⟩ := h5 s.rev.rev
  have hfl : flipped 5 (mk τ (prismVert b s) f1 2 3 4) = some (!f1) := flipped_mk τ (prismVert b s) 5 2 (by norm_num) (by norm_num) f1
  refine ⟨⟨10, prismVert b s, [mk τ (prismVert b s) f1 2 3 4, mk τ (prismVert b s) f2 1 2 3, mk τ (prismVert b s) f3 0 1 2] ++
    [mk τ (prismVert b s) f5 7 8 9, mk τ (prismVert b s) f6 6 7 8, mk τ (prismVert b s) f7 5 6 7] ++
    prismSides τ (prismVert b s) 5 (!f1)⟩, ?_, ?_⟩
  · unfold prism
    simp only [hlen]
    rw [e0, e5]
    dsimp only
    rw [hfl]
  · intro hc
    set g : ℕ → ℕ → ℝ := fun a b => if a = 2 ∧ b = 4 then 1 else if a = 4 ∧ b = 2 then -1 else 0 with hgd
    have hg : ∀ a b, g a b = - g b a := by
      intro a b
      simp only [hgd]
      split_ifs <;> first | omega | norm_num
    have hsum : ((faceIdx _).map (triSum g)).sum = 0 := closed_sum hc g hg
    have hfi : (faceIdx ⟨10, prismVert b s, [mk τ (prismVert b s) f1 2 3 4, mk τ (prismVert b s) f2 1 2 3, mk τ (prismVert b s) f3 0 1 2] ++
        [mk τ (prismVert b s) f5 7 8 9, mk τ (prismVert b s) f6 6 7 8, mk τ (prismVert b s) f7 5 6 7] ++
        prismSides τ (prismVert b s) 5 (!f1)⟩).map (triSum g) =
        ([mk τ (prismVert b s) f1 2 3 4, mk τ (prismVert b s) f2 1 2 3, mk τ (prismVert b s) f3 0 1 2] ++
        [mk τ (prismVert b s) f5 7 8 9, mk τ (prismVert b s) f6 6 7 8, mk τ (prismVert b s) f7 5 6 7] ++
        prismSides τ (prismVert b s) 5 (!f1)).map (fsum g) := by
      unfold faceIdx
      rw [List.map_map]; rfl
    rw [hfi] at hsum
    simp only [prismSides, show List.range 5 = [0, 1, 2, 3, 4] from rfl, List.flatMap_cons, List.flatMap_nil, List.map_append,
      List.map_cons, List.map_nil, List.sum_append, List.sum_cons, List.sum_nil, fsum_mk τ _ g hg, triSum, next] at hsum
    simp only [hgd] at hsum
    norm_num at hsum
    cases f1 <;> simp [sgn] at hsum

end Zeo

import Verif.Lemmas.MPRDepth

/-! # C65: the Minkowski Portal Refinement algorithm -/

namespace Zeo
open MPR
noncomputable section
open Classical

/-- The determinant of three vectors. -/
def Spec.det (a b c : Vec3 ℝ) : ℝ :=
  a.x * (b.y * c.z - b.z * c.y) + a.y * (b.z * c.x - b.x * c.z) + a.z * (b.x * c.y - b.y * c.x)
/-- A vector perpendicular to the plane through three points. -/
def Spec.perp (a b c : Vec3 ℝ) : Vec3 ℝ :=
  ⟨(b.y - a.y) * (c.z - a.z) - (b.z - a.z) * (c.y - a.y), (b.z - a.z) * (c.x - a.x) - (b.x - a.x) * (c.z - a.z),
   (b.x - a.x) * (c.y - a.y) - (b.y - a.y) * (c.x - a.x)⟩
/-- `v` is the difference of a point of the first list and a point of the second. -/
def Spec.IsDiff (xs ys : List (Vec3 ℝ)) (v : Vec3 ℝ) : Prop :=
  ∃ p ∈ xs, ∃ q ∈ ys, v.x = p.x - q.x ∧ v.y = p.y - q.y ∧ v.z = p.z - q.z
/-- The differences of points are in general position seen from `c`: two of them are not in a plane with `c` and the
origin (the determinant is at least `τ`), and a plane through three of them is not nearer than `τ` to the origin. -/
structure Spec.GenPos (τ : ℝ) (xs ys : List (Vec3 ℝ)) (c : Vec3 ℝ) : Prop where
  pair : ∀ v w, Spec.IsDiff xs ys v → Spec.IsDiff xs ys w → v ≠ w → Spec.det c v w ≠ 0 ∧ τ ≤ |Spec.det c v w|
  plane : ∀ u v w, Spec.IsDiff xs ys u → Spec.IsDiff xs ys v → Spec.IsDiff xs ys w → Spec.perp u v w ≠ ⟨0, 0, 0⟩ →
    τ * Real.sqrt (Spec.dot (Spec.perp u v w) (Spec.perp u v w)) ≤ |Spec.dot u (Spec.perp u v w)|
/-- The difference of the means of two lists of points. -/
def Spec.meanDiff (xs ys : List (Vec3 ℝ)) : Vec3 ℝ :=
  ⟨Spec.mean Vec3.x xs - Spec.mean Vec3.x ys, Spec.mean Vec3.y xs - Spec.mean Vec3.y ys, Spec.mean Vec3.z xs - Spec.mean Vec3.z ys⟩

section
variable {d1 d2 : Data (Vec3 ℝ)} {xs ys : List (Vec3 ℝ)}

private theorem isDiff_of_vert {s : Slot} (h : IsVert xs ys s) : Spec.IsDiff xs ys s.v :=
  ⟨_, h.1, _, h.2.1, by rw [h.2.2]; rfl, by rw [h.2.2]; rfl, by rw [h.2.2]; rfl⟩

private theorem general_of {τ : ℝ} {c : Vec3 ℝ} (h : Spec.GenPos τ xs ys c) : General τ xs ys c where
  pair s t hs ht hne := by
    have := h.pair _ _ (isDiff_of_vert hs) (isDiff_of_vert ht) hne
    have e : Spec.det c s.v t.v = Vec3.grassmann c s.v t.v := by simp only [Spec.det, zeo]
    rwa [e] at this
  plane s t u hs ht hu hne := by
    have e : Spec.perp s.v t.v u.v = normal s.v t.v u.v := by ext <;> simp only [Spec.perp, normal, zeo]
    have := h.plane _ _ _ (isDiff_of_vert hs) (isDiff_of_vert ht) (isDiff_of_vert hu) (by rw [e]; exact hne)
    rw [e] at this
    exact this

/-- The centre of the portal. -/
theorem mpr_origin (w1 : d1.WF) (w2 : d2.WF) (s1 : d1.Shows xs) (s2 : d2.Shows ys) (hx : xs ≠ []) (hy : ys ≠ []) :
    ∃ c, origin d1 d2 = some c ∧ c.v = Spec.meanDiff xs ys ∧ c.v = c.v1.sub c.v2 ∧
      Spec.InHull {p | p ∈ xs} c.v1 ∧ Spec.InHull {p | p ∈ ys} c.v2 := by
  obtain ⟨c1, h1, m1, -⟩ := C60_barycenter w1 s1 hx
  obtain ⟨c2, h2, m2, -⟩ := C60_barycenter w2 s2 hy
  have e1 : c1 = ⟨Spec.mean Vec3.x xs, Spec.mean Vec3.y xs, Spec.mean Vec3.z xs⟩ := by
    ext
    · exact m1 0
    · exact m1 1
    · exact m1 2
  have e2 : c2 = ⟨Spec.mean Vec3.x ys, Spec.mean Vec3.y ys, Spec.mean Vec3.z ys⟩ := by
    ext
    · exact m2 0
    · exact m2 1
    · exact m2 2
  refine ⟨⟨c1.sub c2, c1, c2⟩, by rw [origin, h1, h2], ?_, rfl, ?_, ?_⟩
  · rw [e1, e2]; rfl
  · rw [e1]; exact Spec.InHull.mean hx
  · rw [e2]; exact Spec.InHull.mean hy

/-- **An empty set** makes `zMPR` copy from NULL. -/
theorem C65_empty (τ : ℝ) (fuel : ℕ) (w1 : d1.WF) (w2 : d2.WF) (s1 : d1.Shows xs) (s2 : d2.Shows ys) (h : xs = [] ∨ ys = []) :
    find τ fuel d1 d2 = some .crash ∧ zMPR τ fuel d1 d2 = some none := by
  have e : origin d1 d2 = none := by
    rcases h with rfl | rfl
    · have := (C60_empty (τ := τ) w1 s1 .zero .zero).1
      rw [origin, this]
    · have := (C60_empty (τ := τ) w2 s2 .zero .zero).1
      rw [origin, this]
      cases d1.barycenter <;> rfl
  have : find τ fuel d1 d2 = some .crash := by rw [find, e]
  exact ⟨this, by rw [zMPR, this]⟩

/-- **No contact is reported only for sets that hardly overlap**: if `zMPR` returns false, there is a direction along
which the hulls do not overlap by more than the tolerance. -/
theorem C65_false {τ : ℝ} (hτ : 0 ≤ τ) {fuel : ℕ} (w1 : d1.WF) (w2 : d2.WF) (s1 : d1.Shows xs) (s2 : d2.Shows ys) (hx : xs ≠ []) (hy : ys ≠ [])
    (h : zMPR τ fuel d1 d2 = some (some false)) :
    ∃ d, Spec.dot d d = 1 ∧
      ((∀ a b, Spec.InHull {p | p ∈ xs} a → Spec.InHull {p | p ∈ ys} b → Spec.dot a d - Spec.dot b d < τ) ∨
       (∀ a b, Spec.InHull {p | p ∈ xs} a → Spec.InHull {p | p ∈ ys} b → Spec.dot a d - Spec.dot b d ≤ 0)) := by
  have hS := supp_pairs w1 w2 s1 s2 hx hy
  obtain ⟨c, hc, -⟩ := mpr_origin w1 w2 s1 s2 hx hy
  have e : ∀ a b d : Vec3 ℝ, Spec.dot a d - Spec.dot b d = (a.sub b).inner d := fun a b d => by simp only [Spec.dot, zeo]; ring
  simp only [e]
  unfold zMPR at h
  rw [find, hc] at h
  dsimp only at h
  split at h
  · cases h
  · rename_i hf
    obtain ⟨d, hd, k, hk, hb⟩ := findFrom_outside hS hf
    exact ⟨d, hd, Or.inl fun a b ha hb' => lt_of_le_of_lt (pair_hull hb ha hb') hk⟩
  · cases h
  · cases h
  · cases h
  · cases h
  · split at h
    · cases h
    · rename_i b q hr
      obtain rfl : b = false := by simpa using h
      obtain ⟨d, hd, k, hk, hb⟩ := refine_false hS _ hr
      refine ⟨d, hd, Or.inr fun a b ha hb' => (pair_hull hb ha hb').trans ?_⟩
      rcases hk with hk | hk <;> linarith
    · cases h
    · cases h

/-- The tetrahedron of a portal that contains the origin holds a common point of the hulls. -/
private theorem meet {q : Portal} (hg : Good xs ys q) (h0 : 0 < w0 q) (hc : q.s0.v = q.s0.v1.sub q.s0.v2)
    (h1 : Spec.InHull {p | p ∈ xs} q.s0.v1) (h2 : Spec.InHull {p | p ∈ ys} q.s0.v2) :
    ∃ x, Spec.InHull {p | p ∈ xs} x ∧ Spec.InHull {p | p ∈ ys} x := by
  have p1 := hg.p1
  have p2 := hg.p2
  have p3 := hg.p3
  have hs : 0 < w0 q + w1 q + w2 q + w3 q := by linarith
  have hA := Spec.InHull.four h1 (Spec.InHull.self hg.v1.1) (Spec.InHull.self hg.v2.1) (Spec.InHull.self hg.v3.1) h0.le p1.le p2.le p3.le hs
  have hB := Spec.InHull.four h2 (Spec.InHull.self hg.v1.2.1) (Spec.InHull.self hg.v2.2.1) (Spec.InHull.self hg.v3.2.1) h0.le p1.le p2.le p3.le hs
  refine ⟨_, hA, ?_⟩
  convert hB using 1
  obtain ⟨zx, zy, zz⟩ := weights_zero q
  rw [hc, hg.v1.2.2, hg.v2.2.2, hg.v3.2.2] at zx zy zz
  simp only [Vec3.sub] at zx zy zz
  have hne := hs.ne'
  ext <;> simp only [Spec.comb] <;> field_simp <;> linarith

/-- The segment from the centre to vertex 1 passes near the origin. -/
private theorem seg_near {τ : ℝ} {c v : Vec3 ℝ} (h : (v.outer c).isTol τ) (hi : v.inner c ≤ -(τ * c.norm)) (hτ : 0 ≤ τ)
    (hc : c ≠ .zero) : ∃ t : ℝ, 0 ≤ t ∧ t ≤ 1 ∧ ((c.cat t (v.sub c)).inner (c.cat t (v.sub c))) ≤ τ := by
  have hi0 : v.inner c ≤ 0 := by
    have := mul_nonneg hτ (norm_pos_of_ne hc).le
    linarith
  have hcc : 0 < c.inner c := by
    have := norm_pos_of_ne hc
    have e := Vec3.norm_sq c
    have : 0 < c.norm ^ 2 := by positivity
    rw [e] at this
    simp only [zeo] at this ⊢; linarith
  have hvv : 0 ≤ v.inner v := by simp only [zeo]; nlinarith [sq_nonneg v.x, sq_nonneg v.y, sq_nonneg v.z]
  have hX : (v.outer c).inner (v.outer c) ≤ 3 * τ ^ 2 := by
    obtain ⟨tx, ty, tz⟩ := h
    simp only [zIsTol] at tx ty tz
    have h1 := sq_le_sq' (abs_le.1 tx).1 (abs_le.1 tx).2
    have h2 := sq_le_sq' (abs_le.1 ty).1 (abs_le.1 ty).2
    have h3 := sq_le_sq' (abs_le.1 tz).1 (abs_le.1 tz).2
    have e : (v.outer c).inner (v.outer c) = (v.outer c).x ^ 2 + (v.outer c).y ^ 2 + (v.outer c).z ^ 2 := by
      generalize v.outer c = o
      simp only [Vec3.inner]; ring
    linarith
  have hL : (v.outer c).inner (v.outer c) = v.inner v * c.inner c - (v.inner c) ^ 2 := by simp only [zeo]; ring
  have key : ∀ t : ℝ, (c.cat t (v.sub c)).inner (c.cat t (v.sub c)) =
      c.inner c + 2 * t * (v.inner c - c.inner c) + t ^ 2 * (v.inner v - 2 * v.inner c + c.inner c) := by
    intro t; simp only [zeo]; ring
  rw [hL] at hX
  generalize v.inner v = V at *
  generalize c.inner c = C at *
  generalize v.inner c = I at *
  have hpos : 0 < V - 2 * I + C := by linarith
  refine ⟨(C - I) / (V - 2 * I + C), div_nonneg (by linarith) hpos.le, (div_le_one hpos).2 (by linarith), ?_⟩
  rw [key]
  have : C + 2 * ((C - I) / (V - 2 * I + C)) * (I - C) + ((C - I) / (V - 2 * I + C)) ^ 2 * (V - 2 * I + C) = (V * C - I ^ 2) / (V - 2 * I + C) := by
    field_simp; ring
  rw [this, div_le_iff₀ hpos]
  by_contra hh
  push Not at hh
  nlinarith [sq_nonneg (V - C), mul_nonneg hvv hcc.le, mul_nonneg hτ hpos.le]

/-- **Contact is real, in general position** (partial: without general position it is false, see
`C65_false_contact`): if `zMPR` returns true, the hulls have a common point, or the barycenters or a vertex of the
difference are so placed that only points within the square root of the tolerance are known. -/
theorem C65_true_partial {τ : ℝ} (hτ : 0 ≤ τ) (hτ' : τ ≤ 1/3) {fuel : ℕ} (w1 : d1.WF) (w2 : d2.WF) (s1 : d1.Shows xs) (s2 : d2.Shows ys)
    (hx : xs ≠ []) (hy : ys ≠ []) (hG : Spec.GenPos τ xs ys (Spec.meanDiff xs ys)) (h : zMPR τ fuel d1 d2 = some (some true)) :
    (∃ x, Spec.InHull {p | p ∈ xs} x ∧ Spec.InHull {p | p ∈ ys} x) ∨
    ∃ a b, Spec.InHull {p | p ∈ xs} a ∧ Spec.InHull {p | p ∈ ys} b ∧ Spec.sqd a b ≤ τ := by
  have hS := supp_pairs w1 w2 s1 s2 hx hy
  obtain ⟨c, hc, hcm, hcv, hc1, hc2⟩ := mpr_origin w1 w2 s1 s2 hx hy
  by_cases ht : c.v.isTol τ
  · refine Or.inr ⟨_, _, hc1, hc2, ?_⟩
    obtain ⟨tx, ty, tz⟩ := ht
    rw [hcv] at tx ty tz
    simp only [zIsTol, Vec3.sub] at tx ty tz
    simp only [Spec.sqd]
    have := abs_le.1 tx
    have := abs_le.1 ty
    have := abs_le.1 tz
    nlinarith
  have hb : bias τ c = c := if_neg ht
  have hne : c.v ≠ .zero := fun e => ht (by rw [e]; simp only [Vec3.isTol, zIsTol, Vec3.zero, abs_zero]; exact ⟨hτ, hτ, hτ⟩)
  have hG' : General τ xs ys c.v := by rw [hcm]; exact general_of hG
  unfold zMPR at h
  rw [find, hc] at h
  dsimp only at h
  rw [hb] at h
  have seg : ∀ s : Slot, IsVert xs ys s → (s.v.outer c.v).isTol τ → s.v.inner c.v ≤ -(τ * c.v.norm) →
      ∃ a b, Spec.InHull {p | p ∈ xs} a ∧ Spec.InHull {p | p ∈ ys} b ∧ Spec.sqd a b ≤ τ := by
    intro s hv ho hi
    obtain ⟨t, t0, t1, hn⟩ := seg_near ho hi hτ hne
    refine ⟨_, _, hc1.conv (Spec.InHull.self hv.1) (sub_nonneg.2 t1) t0 (by ring), hc2.conv (Spec.InHull.self hv.2.1) (sub_nonneg.2 t1) t0 (by ring), ?_⟩
    refine le_trans (le_of_eq ?_) hn
    rw [hcv, hv.2.2]
    simp only [Spec.sqd, Spec.comb, zeo]; ring
  cases hf : findFrom τ (supportMap d1 d2) fuel c with
  | none => rw [hf] at h; cases h
  | some f =>
    rw [hf] at h
    rcases findFrom_spec hτ hS hG' hne hf with rfl | ⟨p, rfl, hp0, hp⟩ | ⟨s, -, -, hv, ho, hi⟩ | ⟨-, rfl⟩
    · cases h
    · dsimp only at h
      split at h
      · cases h
      · rename_i b q hr
        obtain rfl : b = true := by simpa using h
        obtain ⟨r1, r2, r3⟩ := refine_true hτ hS fuel (by rw [hp0]; exact hG') hp hr
        rw [hp0] at r1
        exact Or.inl (meet r2 r3 (by rw [r1]; exact hcv) (by rw [r1]; exact hc1) (by rw [r1]; exact hc2))
      · cases h
      · cases h
    · exact Or.inr (seg s hv ho hi)
    · cases h

/-- **The depth is enough to part the hulls**: if `zMPRDepth` returns true with `*depth`, then along some direction the
hulls overlap by no more than `*depth` and twice the tolerance. -/
theorem C65_depth {τ : ℝ} (hτ : 0 ≤ τ) {fuel iter : ℕ} {od : ℝ} {op odr : Vec3 ℝ} (w1 : d1.WF) (w2 : d2.WF) (s1 : d1.Shows xs) (s2 : d2.Shows ys)
    (hx : xs ≠ []) (hy : ys ≠ []) {depth : ℝ} {pos dir : Vec3 ℝ} (h : zMPRDepth τ fuel iter od op odr d1 d2 = some (.ret true depth pos dir)) :
    0 ≤ depth ∧ ∃ d, Spec.dot d d = 1 ∧
      ∀ a b, Spec.InHull {p | p ∈ xs} a → Spec.InHull {p | p ∈ ys} b → Spec.dot a d - Spec.dot b d ≤ depth + 2 * τ := by
  have hS := supp_pairs w1 w2 s1 s2 hx hy
  obtain ⟨c, hc, -⟩ := mpr_origin w1 w2 s1 s2 hx hy
  have e : ∀ a b d : Vec3 ℝ, Spec.dot a d - Spec.dot b d = (a.sub b).inner d := fun a b d => by simp only [Spec.dot, zeo]; ring
  simp only [e]
  have cs : ∀ v d : Vec3 ℝ, d.inner d = 1 → v.inner d ≤ Real.sqrt v.sqrNorm := by
    intro v d hd
    refine Real.le_sqrt_of_sq_le ?_
    have e : v.sqrNorm * d.inner d - (v.inner d) ^ 2 = (v.outer d).inner (v.outer d) := by simp only [zeo]; ring
    have : 0 ≤ (v.outer d).inner (v.outer d) := by
      generalize v.outer d = o
      simp only [zeo]; nlinarith [sq_nonneg o.x, sq_nonneg o.y, sq_nonneg o.z]
    rw [hd, mul_one] at e
    linarith
  unfold zMPRDepth at h
  rw [find, hc] at h
  dsimp only at h
  split at h
  · cases h
  · simp at h
  · rename_i s hf
    simp only [Option.some.injEq, Res.ret.injEq, true_and] at h
    obtain ⟨rfl, -, -⟩ := h
    obtain ⟨-, ht, d, hd, hb⟩ := findFrom_first hS (Or.inl hf)
    refine ⟨le_rfl, d, hd, fun a b ha hb' => (pair_hull hb ha hb').trans ((cs _ _ hd).trans ?_)⟩
    obtain ⟨tx, ty, tz⟩ := ht hf
    have h1 := sq_le_sq' (abs_le.1 tx).1 (abs_le.1 tx).2
    have h2 := sq_le_sq' (abs_le.1 ty).1 (abs_le.1 ty).2
    have h3 := sq_le_sq' (abs_le.1 tz).1 (abs_le.1 tz).2
    refine Real.sqrt_le_iff.2 ⟨by linarith, ?_⟩
    simp only [zeo]; nlinarith
  · rename_i s hf
    split at h
    · cases h
    rename_i u hu
    simp only [Option.some.injEq, Res.ret.injEq, true_and] at h
    obtain ⟨rfl, -, -⟩ := h
    obtain ⟨-, -, d, hd, hb⟩ := findFrom_first hS (Or.inr hf)
    refine ⟨Real.sqrt_nonneg _, d, hd, fun a b ha hb' => (pair_hull hb ha hb').trans ((cs _ _ hd).trans ?_)⟩
    have : Real.sqrt s.v.sqrNorm = s.v.norm := rfl
    linarith
  · cases h
  · cases h
  · split at h
    · cases h
    · rename_i q hr
      obtain ⟨g1, -, d, hd, hb⟩ := depthLoop_true hS iter (Option.some.inj h)
      refine ⟨g1, d, hd, fun a b ha hb' => (pair_hull (fun p hp q hq => (hb p hp q hq).le) ha hb').trans (by linarith)⟩
    · simp at h
    · cases h
    · cases h

/-- The further conditions under which the answers of `zMPRDepth` are exact: no difference of points is in line with
`c` and the origin, and the tetrahedra made with `c` are not flat. -/
structure Spec.Firm (τ : ℝ) (xs ys : List (Vec3 ℝ)) (c : Vec3 ℝ) : Prop where
  far : τ < |c.x| ∨ τ < |c.y| ∨ τ < |c.z|
  line : ∀ v, Spec.IsDiff xs ys v → τ < |v.y * c.z - v.z * c.y| ∨ τ < |v.z * c.x - v.x * c.z| ∨ τ < |v.x * c.y - v.y * c.x|
  vol : ∀ u v w, Spec.IsDiff xs ys u → Spec.IsDiff xs ys v → Spec.IsDiff xs ys w → Spec.perp u v w ≠ ⟨0, 0, 0⟩ →
    τ ≤ |Spec.dot u (Spec.perp u v w) - Spec.dot c (Spec.perp u v w)|

theorem mpr_bias {τ : ℝ} {c : Slot} (h : τ < |c.v.x| ∨ τ < |c.v.y| ∨ τ < |c.v.z|) : bias τ c = c := by
  refine if_neg fun ⟨hx, hy, hz⟩ => ?_
  simp only [zIsTol] at hx hy hz
  rcases h with h | h | h <;> linarith

/-- **Refinement ends** (partial: the search of the first portal need not end, see `C65_hang`): in general position, if
the search ends, `zMPR` ends. -/
theorem C65_ends_partial {τ : ℝ} (hτ : 0 ≤ τ) (w1 : d1.WF) (w2 : d2.WF) (s1 : d1.Shows xs) (s2 : d2.Shows ys)
    (hx : xs ≠ []) (hy : ys ≠ []) (hG : Spec.GenPos τ xs ys (Spec.meanDiff xs ys)) (hF : Spec.Firm τ xs ys (Spec.meanDiff xs ys))
    {f0 : ℕ} (h : find τ f0 d1 d2 ≠ none) :
    ∀ fuel, f0 ≤ fuel → (xs.length * ys.length) ^ 3 < fuel → zMPR τ fuel d1 d2 ≠ none := by
  intro fuel hf hr
  have hS := supp_pairs w1 w2 s1 s2 hx hy
  obtain ⟨c, hc, hcm, hcv, hc1, hc2⟩ := mpr_origin w1 w2 s1 s2 hx hy
  have hG' : General τ xs ys c.v := by rw [hcm]; exact general_of hG
  have hfar := hF.far
  rw [← hcm] at hfar
  have hne : c.v ≠ .zero := by
    intro e
    rw [e] at hfar
    simp only [Vec3.zero, abs_zero] at hfar
    rcases hfar with h | h | h <;> linarith
  rw [find, hc] at h
  dsimp only at h
  rw [mpr_bias hfar] at h
  obtain ⟨r, hr0⟩ := Option.ne_none_iff_exists'.1 h
  have hr1 := findFrom_mono hf hr0
  unfold zMPR
  rw [find, hc]
  dsimp only
  rw [mpr_bias hfar, hr1]
  rcases findFrom_spec hτ hS hG' hne hr1 with rfl | ⟨p, rfl, hp0, hp⟩ | ⟨s, hs | hs, -, hv, ho, hi⟩ | ⟨-, rfl⟩
  · simp
  · obtain ⟨b, q, hq⟩ := refine_ends hS fuel (by rw [hp0]; exact hG') hp (lt_of_le_of_lt (rank_le _ _ _) hr)
    dsimp only
    rw [hq]
    simp
  · rw [hs]; simp
  · rw [hs]; simp
  · simp

/-- **`zMPRDepth` finds the contact `zMPR` finds, and its point is in both hulls**, in general position and with an
iteration limit above the cube of the number of pairs. -/
theorem C65_contact {τ : ℝ} (hτ : 0 < τ) {fuel iter : ℕ} {od : ℝ} {op odr : Vec3 ℝ} (w1 : d1.WF) (w2 : d2.WF) (s1 : d1.Shows xs) (s2 : d2.Shows ys)
    (hx : xs ≠ []) (hy : ys ≠ []) (hG : Spec.GenPos τ xs ys (Spec.meanDiff xs ys)) (hF : Spec.Firm τ xs ys (Spec.meanDiff xs ys))
    (hi : (xs.length * ys.length) ^ 3 < iter) (h : zMPR τ fuel d1 d2 = some (some true)) :
    ∃ depth pos dir, zMPRDepth τ fuel iter od op odr d1 d2 = some (.ret true depth pos dir) ∧ Spec.dot dir dir = 1 ∧ 0 ≤ depth ∧
      Spec.InHull {p | p ∈ xs} pos ∧ Spec.InHull {p | p ∈ ys} pos := by
  have hS := supp_pairs w1 w2 s1 s2 hx hy
  obtain ⟨c, hc, hcm, hcv, hc1, hc2⟩ := mpr_origin w1 w2 s1 s2 hx hy
  rw [← hcm] at hG hF
  have hG' : General τ xs ys c.v := general_of hG
  have hfar := hF.far
  have hne : c.v ≠ .zero := by
    intro e
    rw [e] at hfar
    simp only [Vec3.zero, abs_zero] at hfar
    rcases hfar with h | h | h <;> linarith
  have hfind : find τ fuel d1 d2 = findFrom τ (supportMap d1 d2) fuel c := by
    rw [find, hc]
    dsimp only
    rw [mpr_bias hfar]
  unfold zMPR at h
  unfold zMPRDepth
  rw [hfind] at h ⊢
  cases hf : findFrom τ (supportMap d1 d2) fuel c with
  | none => rw [hf] at h; cases h
  | some f =>
    rw [hf] at h
    rcases findFrom_spec hτ.le hS hG' hne hf with rfl | ⟨p, rfl, hp0, hp⟩ | ⟨s, -, -, hv, ⟨ox, oy, oz⟩, -⟩ | ⟨-, rfl⟩
    · cases h
    · dsimp only at h ⊢
      split at h
      · cases h
      · rename_i b q hr
        obtain rfl : b = true := by simpa using h
        rw [hr]
        dsimp only
        obtain ⟨r1, r2, r3⟩ := refine_true hτ.le hS fuel (by rw [hp0]; exact hG') hp hr
        rw [hp0] at r1
        obtain ⟨g, d, s, g0, g1, g2, gd, gr, gs, ge⟩ := depthLoop_good hτ hS iter (od := od) (op := op) (odr := odr) (p := q)
          (by rw [r1]; exact hG') r2 r3 (lt_of_le_of_lt (rank_le _ _ _) hi)
        rw [ge]
        rw [r1] at g0
        obtain ⟨r, hr⟩ := calcDepth_some (τ := τ) g1.normal_ne
        obtain ⟨n2, n3⟩ := normal_plane g.s1.v g.s2.v g.s3.v
        obtain ⟨c1, c2⟩ := calcDepth_plane hr n2 n3
        have en : Spec.perp g.s1.v g.s2.v g.s3.v = normal g.s1.v g.s2.v g.s3.v := by ext <;> simp only [Spec.perp, normal, zeo]
        have e0 : g.s1.v.inner (normal g.s1.v g.s2.v g.s3.v) = w0 g := by simp only [w0, normal, zeo]; ring
        have e1 : g.s0.v.inner (normal g.s1.v g.s2.v g.s3.v) = -(MPR.w1 g + MPR.w2 g + MPR.w3 g) := by
          simp only [normal, MPR.w1, MPR.w2, MPR.w3, zeo]; ring
        have hrne : r.2 ≠ .zero := by
          intro e
          rw [e, e0] at c2
          simp only [zeo] at c2
          linarith
        obtain ⟨u, hu⟩ := unit_some hrne
        have hV := hF.vol _ _ _ (isDiff_of_vert g1.v1) (isDiff_of_vert g1.v2) (isDiff_of_vert g1.v3) (by rw [en]; exact g1.normal_ne)
        have p1 := g1.p1
        have p2 := g1.p2
        have p3 := g1.p3
        have hV' : τ ≤ w0 g + MPR.w1 g + MPR.w2 g + MPR.w3 g := by
          rw [en] at hV
          change τ ≤ |g.s1.v.inner _ - c.v.inner _| at hV
          rw [← g0, e0, e1, abs_of_pos (by linarith)] at hV
          linarith
        have hp' : ∃ pos, g.depthPair τ d = some pos := by
          unfold Portal.depthPair
          dsimp only
          have a0 : Vec3.grassmann g.s3.v g.s1.v g.s2.v = w0 g := by simp only [w0, zeo]; ring
          have a2 : Vec3.grassmann g.s3.v g.s0.v g.s1.v = MPR.w2 g := by simp only [MPR.w2, zeo]; ring
          rw [a0, a2]
          change ∃ pos, (if w0 g + MPR.w1 g + MPR.w2 g + MPR.w3 g < τ then _ else g.pairOf (w0 g) (MPR.w1 g) (MPR.w2 g) (MPR.w3 g)) = some pos
          rw [if_neg (not_lt.2 hV'), Portal.pairOf, if_neg (by linarith)]
          exact ⟨_, rfl⟩
        obtain ⟨pos, hpos⟩ := hp'
        refine ⟨Real.sqrt r.1, pos, u, ?_, (unit_spec hu).2.1, Real.sqrt_nonneg _, depthPair_mem g1 g2 (by rw [g0]; exact hcv) (by rw [g0]; exact hc1)
          (by rw [g0]; exact hc2) hV' hpos⟩
        simp only [depthLoop, gd, gs, if_pos gr, hr, hpos, hu]
      · cases h
      · cases h
    · exfalso
      have := hF.line _ (isDiff_of_vert hv)
      simp only [zIsTol, Vec3.outer] at ox oy oz
      rcases this with h | h | h <;> linarith
    · cases h

end
end
end Zeo

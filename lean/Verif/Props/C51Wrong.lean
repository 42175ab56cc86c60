import Verif.Props.C51

/-! # C51: wrong answers of `zGJK`

`_zGJKCheck` looks at the slots 0 to `n`-1 of the simplex, but the live slots need not be the first. -/

namespace Zeo
open GJK
noncomputable section
open Classical

/-- The optimal point of a triangle above the tolerance determines the result and the weights. -/
private theorem tri_result {τ : ℝ} (hτ : 0 ≤ τ) (hτ' : τ ≤ 1/4) {a b c : Vec3 ℝ} (h : ¬ (Tri3.outerProd a b c).isTol τ) {x y z : ℝ}
    (hx : 0 ≤ x) (hy : 0 ≤ y) (hz : 0 ≤ z) (hs : x + y + z = 1) {cp : Vec3 ℝ} (hc : cp = Spec.comb x y z 0 a b c a)
    (oa : cp.inner cp ≤ cp.inner a) (ob : cp.inner cp ≤ cp.inner b) (oc : cp.inner cp ≤ cp.inner c) :
    ∃ d, Tri3.closestFromOrigin τ a b c = some ⟨d, x, y, z, cp⟩ := by
  obtain ⟨r, hr, hn, -, h0, h1, h2, hs', hc'⟩ := C20_fromOrigin τ hτ hτ' a b c (Or.inl h)
  obtain ⟨ra, rb, rc⟩ := tri_opt hn
  have e1 : cp.inner cp ≤ cp.inner r.cp := by
    have : cp.inner r.cp = r.s0 * cp.inner a + r.s1 * cp.inner b + r.s2 * cp.inner c := by
      conv_lhs => rw [hc']
      simp only [Spec.comb, zeo]; ring
    rw [this]
    calc cp.inner cp = (r.s0 + r.s1 + r.s2) * cp.inner cp := by rw [hs', one_mul]
      _ = r.s0 * cp.inner cp + r.s1 * cp.inner cp + r.s2 * cp.inner cp := by ring
      _ ≤ _ := by linarith [mul_le_mul_of_nonneg_left oa h0, mul_le_mul_of_nonneg_left ob h1, mul_le_mul_of_nonneg_left oc h2]
  have e2 : r.cp.inner r.cp ≤ cp.inner r.cp := by
    have : cp.inner r.cp = x * r.cp.inner a + y * r.cp.inner b + z * r.cp.inner c := by
      conv_lhs => rw [hc]
      simp only [Spec.comb, zeo]; ring
    rw [this]
    calc r.cp.inner r.cp = (x + y + z) * r.cp.inner r.cp := by rw [hs, one_mul]
      _ = x * r.cp.inner r.cp + y * r.cp.inner r.cp + z * r.cp.inner r.cp := by ring
      _ ≤ _ := by linarith [mul_le_mul_of_nonneg_left ra hx, mul_le_mul_of_nonneg_left rb hy, mul_le_mul_of_nonneg_left rc hz]
  have hle : (r.cp.x - cp.x) * (r.cp.x - cp.x) + (r.cp.y - cp.y) * (r.cp.y - cp.y) + (r.cp.z - cp.z) * (r.cp.z - cp.z) ≤ 0 := by
    simp only [Vec3.inner] at e1 e2
    nlinarith
  have ex : r.cp.x = cp.x := by nlinarith [mul_self_nonneg (r.cp.x - cp.x), mul_self_nonneg (r.cp.y - cp.y), mul_self_nonneg (r.cp.z - cp.z)]
  have ey : r.cp.y = cp.y := by nlinarith [mul_self_nonneg (r.cp.x - cp.x), mul_self_nonneg (r.cp.y - cp.y), mul_self_nonneg (r.cp.z - cp.z)]
  have ez : r.cp.z = cp.z := by nlinarith [mul_self_nonneg (r.cp.x - cp.x), mul_self_nonneg (r.cp.y - cp.y), mul_self_nonneg (r.cp.z - cp.z)]
  have hcp : r.cp = cp := by ext <;> assumption
  rw [hcp, hc] at hc'
  have fx := congrArg Vec3.x hc'
  have fy := congrArg Vec3.y hc'
  have fz := congrArg Vec3.z hc'
  simp only [Spec.comb] at fx fy fz
  -- the differences of the weights vanish
  have hN : ∀ k l : ℝ, (k * (b.x - a.x) + l * (c.x - a.x) = 0) → (k * (b.y - a.y) + l * (c.y - a.y) = 0) → (k * (b.z - a.z) + l * (c.z - a.z) = 0) →
      k = 0 ∧ l = 0 := by
    intro k l kx ky kz
    have z1 : ∀ t, (t = k ∨ t = l) → t * (Tri3.outerProd a b c).x = 0 ∧ t * (Tri3.outerProd a b c).y = 0 ∧ t * (Tri3.outerProd a b c).z = 0 := by
      rintro t (rfl | rfl) <;> simp only [Tri3.outerProd, zeo] <;> refine ⟨?_, ?_, ?_⟩
      · linear_combination (c.z - a.z) * ky - (c.y - a.y) * kz
      · linear_combination (c.x - a.x) * kz - (c.z - a.z) * kx
      · linear_combination (c.y - a.y) * kx - (c.x - a.x) * ky
      · linear_combination (b.y - a.y) * kz - (b.z - a.z) * ky
      · linear_combination (b.z - a.z) * kx - (b.x - a.x) * kz
      · linear_combination (b.x - a.x) * ky - (b.y - a.y) * kx
    have nz : ∀ t, (t = k ∨ t = l) → t = 0 := by
      intro t ht
      by_contra hne
      obtain ⟨q1, q2, q3⟩ := z1 t ht
      apply h
      simp only [Vec3.isTol, zIsTol, (mul_eq_zero.1 q1).resolve_left hne, (mul_eq_zero.1 q2).resolve_left hne,
        (mul_eq_zero.1 q3).resolve_left hne, abs_zero]
      exact ⟨hτ, hτ, hτ⟩
    exact ⟨nz k (Or.inl rfl), nz l (Or.inr rfl)⟩
  obtain ⟨ky, kz⟩ := hN (r.s1 - y) (r.s2 - z) (by linear_combination (-1 : ℝ) * fx - a.x * hs' + a.x * hs)
    (by linear_combination (-1 : ℝ) * fy - a.y * hs' + a.y * hs) (by linear_combination (-1 : ℝ) * fz - a.z * hs' + a.z * hs)
  refine ⟨r.dist, ?_⟩
  rw [hr]
  have w1 : r.s1 = y := by linarith
  have w2 : r.s2 = z := by linarith
  have w0 : r.s0 = x := by linarith
  obtain ⟨d, q0, q1, q2, q3⟩ := r
  simp only at w0 w1 w2 hcp
  subst w0 w1 w2 hcp
  rfl

/-! ## Evaluating the loop -/

private def S4 (n : ℕ) (a b c d : Slot) : Simplex := ⟨n, ![a, b, c, d]⟩
private theorem S4_0 {n : ℕ} {a b c d : Slot} : (S4 n a b c d).slot 0 = a := rfl
private theorem S4_1 {n : ℕ} {a b c d : Slot} : (S4 n a b c d).slot 1 = b := rfl
private theorem S4_2 {n : ℕ} {a b c d : Slot} : (S4 n a b c d).slot 2 = c := rfl
private theorem S4_3 {n : ℕ} {a b c d : Slot} : (S4 n a b c d).slot 3 = d := rfl

/-- A slot after the minimisation. -/
private def pr (τ : ℝ) (a : Slot) : Slot := if zIsTol a.s τ then { a with s := 0, swW := false } else { a with swW := true }

private theorem prune_S4 (τ : ℝ) (n : ℕ) (a b c d : Slot) : (S4 n a b c d).prune τ =
    S4 ((if zIsTol a.s τ then 0 else 1) + (if zIsTol b.s τ then 0 else 1) + (if zIsTol c.s τ then 0 else 1) + (if zIsTol d.s τ then 0 else 1))
      (pr τ a) (pr τ b) (pr τ c) (pr τ d) := by
  have e : List.finRange 4 = [0, 1, 2, 3] := by decide
  unfold Simplex.prune
  rw [e]
  simp only [S4, Simplex.mk.injEq]
  constructor
  · simp only [List.filter_cons, Matrix.cons_val_zero, Matrix.cons_val_one, Matrix.cons_val, List.filter_nil, decide_not]
    by_cases h0 : zIsTol a.s τ <;> by_cases h1 : zIsTol b.s τ <;> by_cases h2 : zIsTol c.s τ <;> by_cases h3 : zIsTol d.s τ <;> simp [h0, h1, h2, h3]
  · funext i; fin_cases i <;> rfl

private theorem free_S4 (n : ℕ) (a b c d : Slot) : (S4 n a b c d).free =
    if a.swW = false then some 0 else if b.swW = false then some 1 else if c.swW = false then some 2 else if d.swW = false then some 3 else none := by
  have e : List.finRange 4 = [0, 1, 2, 3] := by decide
  unfold Simplex.free
  rw [e]
  simp only [List.find?_cons, List.find?_nil, S4_0, S4_1, S4_2, S4_3]
  cases a.swW <;> cases b.swW <;> cases c.swW <;> cases d.swW <;> rfl

private theorem ys_S4 (n : ℕ) (a b c d : Slot) : (S4 n a b c d).ys =
    (if a.swY then [0] else []) ++ ((if b.swY then [1] else []) ++ ((if c.swY then [2] else []) ++ (if d.swY then [3] else []))) := by
  have e : List.finRange 4 = [0, 1, 2, 3] := by decide
  unfold Simplex.ys
  rw [e]
  simp only [List.filter_cons, List.filter_nil, S4_0, S4_1, S4_2, S4_3]
  by_cases h0 : a.swY = true <;> by_cases h1 : b.swY = true <;> by_cases h2 : c.swY = true <;> by_cases h3 : d.swY = true <;> simp [h0, h1, h2, h3]

private theorem dup_S4 (n : ℕ) (a b c d : Slot) (w : Vec3 ℝ) : (S4 n a b c d).checkDup w ↔
    (a.swY = true ∧ a.w = w) ∨ (b.swY = true ∧ b.w = w) ∨ (c.swY = true ∧ c.w = w) ∨ (d.swY = true ∧ d.w = w) := by
  unfold Simplex.checkDup
  constructor
  · rintro ⟨i, hi⟩
    fin_cases i
    · exact Or.inl hi
    · exact Or.inr (Or.inl hi)
    · exact Or.inr (Or.inr (Or.inl hi))
    · exact Or.inr (Or.inr (Or.inr hi))
  · rintro (h | h | h | h)
    exacts [⟨0, h⟩, ⟨1, h⟩, ⟨2, h⟩, ⟨3, h⟩]

private theorem map_S4 {n : ℕ} {f : Fin 4 → Slot} : (⟨n, f⟩ : Simplex) = S4 n (f 0) (f 1) (f 2) (f 3) := by
  simp only [S4, Simplex.mk.injEq, true_and]; funext i; fin_cases i <;> rfl

/-- One round of the loop from known values. -/
private theorem go {τ junk : ℝ} {supp : Vec3 ℝ → Option (Vec3 ℝ × Vec3 ℝ)} {fuel : ℕ} {s s1 s2 : Simplex} {v v2 p1 p2 : Vec3 ℝ} {dv2 : Option ℝ}
    (h1 : supp v = some (p1, p2)) (h2 : ¬ s.checkDup (p1.sub p2)) (h3 : ∀ d, dv2 = some d → τ < d - (p1.sub p2).inner v)
    (h4 : s.addSlot junk (p1.sub p2) p1 p2 = some s1) (h5 : s1.closest τ = some (s2, v2)) (h6 : s2.n < 4) :
    loop τ junk supp (fuel + 1) s v dv2 = loop τ junk supp fuel s2 v2 (some v2.sqrNorm) := by
  rw [loop, h1]
  dsimp only
  rw [if_neg (by rintro (h | ⟨d, hd, hle⟩); exacts [h2 h, absurd hle (not_le.2 (h3 d hd))]), h4]
  dsimp only
  rw [h5]
  dsimp only
  rw [if_pos h6]

private theorem addSlot_S4_0 {n : ℕ} {a b c d : Slot} {junk : ℝ} {w p1 p2 : Vec3 ℝ} (h : a.swW = false) :
    (S4 n a b c d).addSlot junk w p1 p2 = some (S4 n ⟨a.swW, true, w, p1, p2, junk⟩ { b with swY := b.swW } { c with swY := c.swW } { d with swY := d.swW }) := by
  rw [Simplex.addSlot, free_S4, if_pos h, Option.map_some, map_S4]; rfl
private theorem addSlot_S4_1 {n : ℕ} {a b c d : Slot} {junk : ℝ} {w p1 p2 : Vec3 ℝ} (h0 : a.swW = true) (h : b.swW = false) :
    (S4 n a b c d).addSlot junk w p1 p2 = some (S4 n { a with swY := a.swW } ⟨b.swW, true, w, p1, p2, junk⟩ { c with swY := c.swW } { d with swY := d.swW }) := by
  rw [Simplex.addSlot, free_S4, if_neg (by simp [h0]), if_pos h, Option.map_some, map_S4]; rfl
private theorem addSlot_S4_2 {n : ℕ} {a b c d : Slot} {junk : ℝ} {w p1 p2 : Vec3 ℝ} (h0 : a.swW = true) (h1 : b.swW = true) (h : c.swW = false) :
    (S4 n a b c d).addSlot junk w p1 p2 = some (S4 n { a with swY := a.swW } { b with swY := b.swW } ⟨c.swW, true, w, p1, p2, junk⟩ { d with swY := d.swW }) := by
  rw [Simplex.addSlot, free_S4, if_neg (by simp [h0]), if_neg (by simp [h1]), if_pos h, Option.map_some, map_S4]; rfl

private theorem tol0 {τ : ℝ} (h : 0 < τ) : zIsTol 0 τ := by rw [zIsTol, abs_zero]; exact h.le
private theorem ntol {τ x : ℝ} (h : τ < x) (h0 : 0 < τ) : ¬ zIsTol x τ := by rw [zIsTol, abs_of_pos (h0.trans h)]; exact not_le.2 h

/-- The support map of a list. -/
private theorem support_list (x : Vec3 ℝ) (xs : List (Vec3 ℝ)) (dir : Vec3 ℝ) :
    (Data.assignList (x :: xs)).support3 dir =
      some (xs.foldl (fun (s : Vec3 ℝ × ℝ) v => if v.inner dir > s.2 then (v, v.inner dir) else s) (x, x.inner dir)).1 := by
  set d : Data (Vec3 ℝ) := Data.assignList (x :: xs) with hd
  have h : d.WF := (Data.WF.rewind (d := .lst true (x :: xs) none) (by intro k hk; cases hk)).1
  have hc : d.contents = x :: xs := rfl
  unfold Data.support3 Data.supportWith
  rw [if_neg (by simp [hd, Data.assignList, Data.isEmpty])]
  obtain ⟨r1, r2, r3⟩ := h.rewind
  obtain ⟨f1, f2, f3, f4, f5⟩ := r1.fetch
  rcases hf : d.rewind.fetch with ⟨_ | sp, d'⟩
  · rw [hf, r2, r3, hc] at f3; cases f3
  · rw [hf] at f1 f2 f3 f4
    dsimp only at f1 f2 f3 f4 ⊢
    rw [r2] at f2 f3 f4
    rw [r3] at f3 f4
    rw [(f1.loop _ (d.size + 1) _ (by rw [f2, Data.size_eq h]; omega)).1, f2, f4, hc]
    rw [hc] at f3
    have f3 : sp = x := Option.some.inj f3
    subst f3
    have hm : min (0 + 1) (sp :: xs).length = 1 := by simp
    rw [hm, List.drop_one, List.tail_cons]

/-- The set {(3,0,0), (0,3,0), (2,0,0), (0,1,0)}. -/
private def A : Data (Vec3 ℝ) := .assignList [⟨3, 0, 0⟩, ⟨0, 3, 0⟩, ⟨2, 0, 0⟩, ⟨0, 1, 0⟩]
/-- The set {(0,1,0), (-1,0,0), (0,0,0)}. -/
private def B : Data (Vec3 ℝ) := .assignList [⟨0, 1, 0⟩, ⟨-1, 0, 0⟩, ⟨0, 0, 0⟩]
/-- The origin. -/
private def O : Data (Vec3 ℝ) := .assignList [⟨0, 0, 0⟩]

private theorem suppO {d : Data (Vec3 ℝ)} {v p : Vec3 ℝ} (h : d.support3 v.rev = some p) : supportMap d O v = some (p, ⟨0, 0, 0⟩) := by
  rw [supportMap, h, O, support_list]; rfl

private theorem sub0 (a b c : ℝ) : (⟨a, b, c⟩ : Vec3 ℝ).sub ⟨0, 0, 0⟩ = ⟨a, b, c⟩ := by simp [Vec3.sub]

private theorem pr_live {τ s : ℝ} (h0 : 0 < τ) (h : τ < s) {x y : Bool} {w p q : Vec3 ℝ} : pr τ ⟨x, y, w, p, q, s⟩ = ⟨true, y, w, p, q, s⟩ := by
  rw [pr, if_neg (ntol h h0)]
private theorem pr_dead {τ : ℝ} (h0 : 0 < τ) {x y : Bool} {w p q : Vec3 ℝ} : pr τ ⟨x, y, w, p, q, 0⟩ = ⟨false, y, w, p, q, 0⟩ := by
  rw [pr, if_pos (tol0 h0)]

private theorem closest_S4 {τ : ℝ} {n : ℕ} {a b c d : Slot} {ys : List (Fin 4)} {ws : List ℝ} {v : Vec3 ℝ} {x0 x1 x2 x3 : ℝ} {s2 : Simplex}
    (hy : (S4 n a b c d).ys = ys) (h : weights τ ![a.w, b.w, c.w, d.w] ys = some (ws, v))
    (h0 : weightOf a.s 0 ys ws = x0) (h1 : weightOf b.s 1 ys ws = x1) (h2 : weightOf c.s 2 ys ws = x2) (h3 : weightOf d.s 3 ys ws = x3)
    (h4 : (S4 n ⟨a.swW, a.swY, a.w, a.p1, a.p2, x0⟩ ⟨b.swW, b.swY, b.w, b.p1, b.p2, x1⟩
      ⟨c.swW, c.swY, c.w, c.p1, c.p2, x2⟩ ⟨d.swW, d.swY, d.w, d.p1, d.p2, x3⟩).prune τ = s2) :
    (S4 n a b c d).closest τ = some (s2, v) := by
  have e : (fun i => ((S4 n a b c d).slot i).w) = ![a.w, b.w, c.w, d.w] := by funext i; fin_cases i <;> rfl
  rw [Simplex.closest, hy, e, h, Option.map_some, map_S4, ← h4, ← h0, ← h1, ← h2, ← h3]; rfl

private abbrev z3 : Vec3 ℝ := ⟨0, 0, 0⟩
private abbrev ini : Slot := ⟨false, false, z3, z3, z3, 0⟩
private abbrev on (p : Vec3 ℝ) (s : ℝ) : Slot := ⟨true, true, p, p, z3, s⟩
private abbrev off (p : Vec3 ℝ) : Slot := ⟨false, true, p, p, z3, 0⟩
private abbrev gone (p : Vec3 ℝ) : Slot := ⟨false, false, p, p, z3, 0⟩
private theorem init_S4 : Simplex.init = S4 0 ini ini ini ini := map_S4

private theorem stepA1 {τ : ℝ} (h0 : 0 < τ) (h1 : τ < 1/10) (junk : ℝ) (fuel : ℕ) :
    loop τ junk (supportMap A O) (fuel + 1) Simplex.init ⟨3, 0, 0⟩ none =
      loop τ junk (supportMap A O) fuel (S4 1 (on ⟨0, 3, 0⟩ 1) ini ini ini) ⟨0, 3, 0⟩ (some 9) := by
  have hs : supportMap A O ⟨3, 0, 0⟩ = some (⟨0, 3, 0⟩, ⟨0, 0, 0⟩) := suppO (by
    rw [A, support_list]; norm_num [Vec3.inner, Vec3.rev])
  have t1 : τ < 1 := by linarith
  rw [go (s2 := S4 1 (on ⟨0, 3, 0⟩ 1) ini ini ini) (v2 := ⟨0, 3, 0⟩) hs (by rintro ⟨i, hi, -⟩; cases hi) (by intro d h; cases h)
    (by rw [init_S4, addSlot_S4_0 rfl, sub0])
    (closest_S4 (ys := [0]) (ws := [1]) (x0 := 1) (x1 := 0) (x2 := 0) (x3 := 0) (by rw [ys_S4]; rfl) rfl rfl rfl rfl rfl (by
      rw [prune_S4]; simp [pr_live h0 t1, pr_dead h0, ntol t1 h0, tol0 h0])) (by show 1 < 4; norm_num)]
  norm_num [Vec3.sqrNorm, Vec3.inner]

private theorem edgeA : ∃ d, Edge3.closestFromOrigin ⟨0, 3, 0⟩ ⟨3, 0, 0⟩ = some ⟨d, 1/2, 1/2, ⟨3/2, 3/2, 0⟩⟩ := by
  refine ⟨Vec3.norm ⟨3/2, 3/2, 0⟩, ?_⟩
  unfold Edge3.closestFromOrigin
  norm_num [Vec3.sqrNorm, Vec3.inner, Mat2.mulAdjVec, Vec3.mul, Vec3.cat]

private theorem stepA2 {τ : ℝ} (h0 : 0 < τ) (h1 : τ < 1/10) (junk : ℝ) (fuel : ℕ) :
    loop τ junk (supportMap A O) (fuel + 1) (S4 1 (on ⟨0, 3, 0⟩ 1) ini ini ini) ⟨0, 3, 0⟩ (some 9) =
      loop τ junk (supportMap A O) fuel (S4 2 (on ⟨0, 3, 0⟩ (1/2)) (on ⟨3, 0, 0⟩ (1/2)) ini ini) ⟨3/2, 3/2, 0⟩ (some (9/2)) := by
  have hs : supportMap A O ⟨0, 3, 0⟩ = some (⟨3, 0, 0⟩, ⟨0, 0, 0⟩) := suppO (by
    rw [A, support_list]; norm_num [Vec3.inner, Vec3.rev])
  have t1 : τ < 1/2 := by linarith
  obtain ⟨dd, hw⟩ := edgeA
  rw [go (s2 := S4 2 (on ⟨0, 3, 0⟩ (1/2)) (on ⟨3, 0, 0⟩ (1/2)) ini ini) (v2 := ⟨3/2, 3/2, 0⟩) hs
    (by rw [dup_S4, sub0]; norm_num) (by intro d h; obtain rfl := Option.some.inj h; norm_num [Vec3.inner, Vec3.sub]; linarith)
    (by rw [addSlot_S4_1 rfl rfl, sub0])
    (closest_S4 (ys := [0, 1]) (ws := [1/2, 1/2]) (x0 := 1/2) (x1 := 1/2) (x2 := 0) (x3 := 0) (by rw [ys_S4]; rfl)
      (by simp only [weights]; erw [hw]; rfl) rfl rfl rfl rfl (by
      rw [prune_S4]; simp only [pr_live h0 t1, pr_dead h0, ntol t1 h0, tol0 h0]; rfl)) (by show 2 < 4; norm_num)]
  norm_num [Vec3.sqrNorm, Vec3.inner]

private theorem stepA3 {τ : ℝ} (h0 : 0 < τ) (h1 : τ < 1/10) (junk : ℝ) (fuel : ℕ) :
    loop τ junk (supportMap A O) (fuel + 1) (S4 2 (on ⟨0, 3, 0⟩ (1/2)) (on ⟨3, 0, 0⟩ (1/2)) ini ini) ⟨3/2, 3/2, 0⟩ (some (9/2)) =
      loop τ junk (supportMap A O) fuel (S4 2 (off ⟨0, 3, 0⟩) (on ⟨3, 0, 0⟩ (1/10)) (on ⟨0, 1, 0⟩ (9/10)) ini) ⟨3/10, 9/10, 0⟩ (some (9/10)) := by
  have hs : supportMap A O ⟨3/2, 3/2, 0⟩ = some (⟨0, 1, 0⟩, ⟨0, 0, 0⟩) := suppO (by
    rw [A, support_list]; norm_num [Vec3.inner, Vec3.rev])
  have t1 : τ < 9/10 := by linarith
  obtain ⟨dd, hw⟩ := tri_result (τ := τ) h0.le (by linarith) (a := ⟨0, 3, 0⟩) (b := ⟨3, 0, 0⟩) (c := ⟨0, 1, 0⟩) (x := 0) (y := 1/10) (z := 9/10)
    (cp := ⟨3/10, 9/10, 0⟩) (by norm_num [Tri3.outerProd, Vec3.outer, Vec3.sub, Vec3.isTol, zIsTol]; intro; linarith) le_rfl (by norm_num) (by norm_num) (by norm_num)
    (by norm_num [Spec.comb]) (by norm_num [Vec3.inner]) (by norm_num [Vec3.inner]) (by norm_num [Vec3.inner])
  rw [go (s2 := S4 2 (off ⟨0, 3, 0⟩) (on ⟨3, 0, 0⟩ (1/10)) (on ⟨0, 1, 0⟩ (9/10)) ini) (v2 := ⟨3/10, 9/10, 0⟩) hs
    (by rw [dup_S4, sub0]; norm_num) (by intro d h; obtain rfl := Option.some.inj h; norm_num [Vec3.inner, Vec3.sub]; linarith)
    (by rw [addSlot_S4_2 rfl rfl rfl, sub0])
    (closest_S4 (ys := [0, 1, 2]) (ws := [0, 1/10, 9/10]) (x0 := 0) (x1 := 1/10) (x2 := 9/10) (x3 := 0) (by rw [ys_S4]; rfl)
      (by simp only [weights]; erw [hw]; rfl) rfl rfl rfl rfl (by
      rw [prune_S4]; simp only [pr_live h0 t1, pr_live h0 h1, pr_dead h0, ntol t1 h0, ntol h1 h0, tol0 h0]; rfl)) (by show 2 < 4; norm_num)]
  norm_num [Vec3.sqrNorm, Vec3.inner]

private theorem stepA4 {τ : ℝ} (h0 : 0 < τ) (h1 : τ < 1/10) (junk : ℝ) (fuel : ℕ) :
    loop τ junk (supportMap A O) (fuel + 1) (S4 2 (off ⟨0, 3, 0⟩) (on ⟨3, 0, 0⟩ (1/10)) (on ⟨0, 1, 0⟩ (9/10)) ini) ⟨3/10, 9/10, 0⟩ (some (9/10)) =
      loop τ junk (supportMap A O) fuel (S4 2 (on ⟨2, 0, 0⟩ (1/5)) (off ⟨3, 0, 0⟩) (on ⟨0, 1, 0⟩ (4/5)) ini) ⟨2/5, 4/5, 0⟩ (some (4/5)) := by
  have hs : supportMap A O ⟨3/10, 9/10, 0⟩ = some (⟨2, 0, 0⟩, ⟨0, 0, 0⟩) := suppO (by
    rw [A, support_list]; norm_num [Vec3.inner, Vec3.rev])
  have t1 : τ < 1/5 := by linarith
  have t2 : τ < 4/5 := by linarith
  obtain ⟨dd, hw⟩ := tri_result (τ := τ) h0.le (by linarith) (a := ⟨2, 0, 0⟩) (b := ⟨3, 0, 0⟩) (c := ⟨0, 1, 0⟩) (x := 1/5) (y := 0) (z := 4/5)
    (cp := ⟨2/5, 4/5, 0⟩) (by norm_num [Tri3.outerProd, Vec3.outer, Vec3.sub, Vec3.isTol, zIsTol]; intro; linarith) (by norm_num) le_rfl (by norm_num) (by norm_num)
    (by norm_num [Spec.comb]) (by norm_num [Vec3.inner]) (by norm_num [Vec3.inner]) (by norm_num [Vec3.inner])
  rw [go (s2 := S4 2 (on ⟨2, 0, 0⟩ (1/5)) (off ⟨3, 0, 0⟩) (on ⟨0, 1, 0⟩ (4/5)) ini) (v2 := ⟨2/5, 4/5, 0⟩) hs
    (by rw [dup_S4, sub0]; norm_num) (by intro d h; obtain rfl := Option.some.inj h; norm_num [Vec3.inner, Vec3.sub]; linarith)
    (by rw [addSlot_S4_0 rfl, sub0])
    (closest_S4 (ys := [0, 1, 2]) (ws := [1/5, 0, 4/5]) (x0 := 1/5) (x1 := 0) (x2 := 4/5) (x3 := 0) (by rw [ys_S4]; rfl)
      (by simp only [weights]; erw [hw]; rfl) rfl rfl rfl rfl (by
      rw [prune_S4]; simp only [pr_live h0 t1, pr_live h0 t2, pr_dead h0, ntol t1 h0, ntol t2 h0, tol0 h0]; rfl)) (by show 2 < 4; norm_num)]
  norm_num [Vec3.sqrNorm, Vec3.inner]

private theorem stepA5 {τ : ℝ} (junk : ℝ) (fuel : ℕ) :
    loop τ junk (supportMap A O) (fuel + 1) (S4 2 (on ⟨2, 0, 0⟩ (1/5)) (off ⟨3, 0, 0⟩) (on ⟨0, 1, 0⟩ (4/5)) ini) ⟨2/5, 4/5, 0⟩ (some (4/5)) =
      some (.done (S4 2 (on ⟨2, 0, 0⟩ (1/5)) (off ⟨3, 0, 0⟩) (on ⟨0, 1, 0⟩ (4/5)) ini) ⟨2/5, 4/5, 0⟩) := by
  have hs : supportMap A O ⟨2/5, 4/5, 0⟩ = some (⟨2, 0, 0⟩, ⟨0, 0, 0⟩) := suppO (by
    rw [A, support_list]; norm_num [Vec3.inner, Vec3.rev])
  rw [loop, hs]
  dsimp only
  rw [if_pos]
  left
  rw [dup_S4, sub0]; norm_num

/-- **False contact**: the hull of {(3,0,0), (0,3,0), (2,0,0), (0,1,0)} and the origin have no common
point, but `zGJK` returns true. -/
theorem C51_false_contact (τ : ℝ) (h0 : 0 < τ) (h1 : τ < 1/10) (junk : ℝ) (jv : Vec3 ℝ) :
    ∃ d1 d2 : Data (Vec3 ℝ), d1.WF ∧ d2.WF ∧ d1.Shows [⟨3, 0, 0⟩, ⟨0, 3, 0⟩, ⟨2, 0, 0⟩, ⟨0, 1, 0⟩] ∧ d2.Shows [⟨0, 0, 0⟩] ∧
      (∀ n, ∃ r c1 c2, gjk τ junk jv (n + 5) d1 d2 = some (.ret r c1 c2) ∧ r) ∧
      ¬ ∃ c, Spec.InHull {x | x ∈ [(⟨3, 0, 0⟩ : Vec3 ℝ), ⟨0, 3, 0⟩, ⟨2, 0, 0⟩, ⟨0, 1, 0⟩]} c ∧ Spec.InHull {x | x ∈ [(⟨0, 0, 0⟩ : Vec3 ℝ)]} c := by
  have wf : ∀ xs : List (Vec3 ℝ), (Data.assignList xs).WF := fun xs =>
    (Data.WF.rewind (d := .lst true xs none) (by intro k hk; cases hk)).1
  have sh : ∀ xs : List (Vec3 ℝ), (Data.assignList xs).Shows xs := fun xs => (wf xs).shows
  refine ⟨A, O, wf _, wf _, sh _, sh _, fun n => ?_, ?_⟩
  · have hst : GJK.start τ junk (n + 5) A O = some (.done (S4 2 (on ⟨2, 0, 0⟩ (1/5)) (off ⟨3, 0, 0⟩) (on ⟨0, 1, 0⟩ (4/5)) ini) ⟨2/5, 4/5, 0⟩) := by
      have e : GJK.start τ junk (n + 5) A O = loop τ junk (supportMap A O) (n + 5) .init ((⟨3, 0, 0⟩ : Vec3 ℝ).sub ⟨0, 0, 0⟩) none := by
        simp [GJK.start, A, O, Data.assignList, Data.rewind, Data.peek]
      rw [e, sub0, stepA1 h0 h1, stepA2 h0 h1, stepA3 h0 h1, stepA4 h0 h1, stepA5]
    refine ⟨_, _, _, by rw [gjk, hst]; rfl, ?_⟩
    show Edge3.pointIsOnLine τ jv ⟨2, 0, 0⟩ ⟨3, 0, 0⟩ .zero τ
    unfold Edge3.pointIsOnLine
    split
    · trivial
    · have : ¬ ((⟨3, 0, 0⟩ : Vec3 ℝ).sub ⟨2, 0, 0⟩).isTol τ := by
        norm_num [Vec3.isTol, zIsTol, Vec3.sub]; intro h; linarith
      rw [Vec3.normalize, if_neg this]
      have : (Vec3.zero.sub (⟨2, 0, 0⟩ : Vec3 ℝ)).outerNorm (((⟨3, 0, 0⟩ : Vec3 ℝ).sub ⟨2, 0, 0⟩).normalizeNC).2 = 0 := by
        norm_num [Vec3.outerNorm, Vec3.norm, Vec3.sqrNorm, Vec3.inner, Vec3.outer, Vec3.normalizeNC, Vec3.sub, Vec3.zero, Vec3.mul]
      rw [this]; exact h0
  · rintro ⟨c, hc1, hc2⟩
    have k1 := inner_hull (v := ⟨2/5, 4/5, 0⟩) (c := 4/5) (fun x hx => by
      simp only [Set.mem_setOf_eq, List.mem_cons, List.not_mem_nil, or_false] at hx
      rcases hx with rfl | rfl | rfl | rfl <;> norm_num [Vec3.inner]) hc1
    have k2 := inner_hull (v := ⟨-2/5, -4/5, 0⟩) (c := 0) (fun x hx => by
      simp only [Set.mem_setOf_eq, List.mem_cons, List.not_mem_nil, or_false] at hx
      subst hx; norm_num [Vec3.inner]) hc2
    simp only [Vec3.inner] at k1 k2
    linarith

private theorem stepB1 {τ : ℝ} (h0 : 0 < τ) (h1 : τ < 1/10) (junk : ℝ) (fuel : ℕ) :
    loop τ junk (supportMap B O) (fuel + 1) Simplex.init ⟨0, 1, 0⟩ none =
      loop τ junk (supportMap B O) fuel (S4 1 (on ⟨-1, 0, 0⟩ 1) ini ini ini) ⟨-1, 0, 0⟩ (some 1) := by
  have hs : supportMap B O ⟨0, 1, 0⟩ = some (⟨-1, 0, 0⟩, ⟨0, 0, 0⟩) := suppO (by
    rw [B, support_list]; norm_num [Vec3.inner, Vec3.rev])
  have t1 : τ < 1 := by linarith
  rw [go (s2 := S4 1 (on ⟨-1, 0, 0⟩ 1) ini ini ini) (v2 := ⟨-1, 0, 0⟩) hs (by rintro ⟨i, hi, -⟩; cases hi) (by intro d h; cases h)
    (by rw [init_S4, addSlot_S4_0 rfl, sub0])
    (closest_S4 (ys := [0]) (ws := [1]) (x0 := 1) (x1 := 0) (x2 := 0) (x3 := 0) (by rw [ys_S4]; rfl) rfl rfl rfl rfl rfl (by
      rw [prune_S4]; simp [pr_live h0 t1, pr_dead h0, ntol t1 h0, tol0 h0])) (by show 1 < 4; norm_num)]
  norm_num [Vec3.sqrNorm, Vec3.inner]

private theorem edgeB : ∃ d, Edge3.closestFromOrigin ⟨-1, 0, 0⟩ ⟨0, 1, 0⟩ = some ⟨d, 1/2, 1/2, ⟨-1/2, 1/2, 0⟩⟩ := by
  refine ⟨Vec3.norm ⟨-1/2, 1/2, 0⟩, ?_⟩
  unfold Edge3.closestFromOrigin
  norm_num [Vec3.sqrNorm, Vec3.inner, Mat2.mulAdjVec, Vec3.mul, Vec3.cat]

private theorem stepB2 {τ : ℝ} (h0 : 0 < τ) (h1 : τ < 1/10) (junk : ℝ) (fuel : ℕ) :
    loop τ junk (supportMap B O) (fuel + 1) (S4 1 (on ⟨-1, 0, 0⟩ 1) ini ini ini) ⟨-1, 0, 0⟩ (some 1) =
      loop τ junk (supportMap B O) fuel (S4 2 (on ⟨-1, 0, 0⟩ (1/2)) (on ⟨0, 1, 0⟩ (1/2)) ini ini) ⟨-1/2, 1/2, 0⟩ (some (1/2)) := by
  have hs : supportMap B O ⟨-1, 0, 0⟩ = some (⟨0, 1, 0⟩, ⟨0, 0, 0⟩) := suppO (by
    rw [B, support_list]; norm_num [Vec3.inner, Vec3.rev])
  have t1 : τ < 1/2 := by linarith
  obtain ⟨dd, hw⟩ := edgeB
  rw [go (s2 := S4 2 (on ⟨-1, 0, 0⟩ (1/2)) (on ⟨0, 1, 0⟩ (1/2)) ini ini) (v2 := ⟨-1/2, 1/2, 0⟩) hs
    (by rw [dup_S4, sub0]; norm_num) (by intro d h; obtain rfl := Option.some.inj h; norm_num [Vec3.inner, Vec3.sub]; linarith)
    (by rw [addSlot_S4_1 rfl rfl, sub0])
    (closest_S4 (ys := [0, 1]) (ws := [1/2, 1/2]) (x0 := 1/2) (x1 := 1/2) (x2 := 0) (x3 := 0) (by rw [ys_S4]; rfl)
      (by simp only [weights]; erw [hw]; rfl) rfl rfl rfl rfl (by
      rw [prune_S4]; simp only [pr_live h0 t1, pr_dead h0, ntol t1 h0, tol0 h0]; rfl)) (by show 2 < 4; norm_num)]
  norm_num [Vec3.sqrNorm, Vec3.inner]

private theorem stepB3 {τ : ℝ} (h0 : 0 < τ) (h1 : τ < 1/10) (junk : ℝ) (fuel : ℕ) :
    loop τ junk (supportMap B O) (fuel + 1) (S4 2 (on ⟨-1, 0, 0⟩ (1/2)) (on ⟨0, 1, 0⟩ (1/2)) ini ini) ⟨-1/2, 1/2, 0⟩ (some (1/2)) =
      loop τ junk (supportMap B O) fuel (S4 1 (off ⟨-1, 0, 0⟩) (off ⟨0, 1, 0⟩) (on ⟨0, 0, 0⟩ 1) ini) ⟨0, 0, 0⟩ (some 0) := by
  have hs : supportMap B O ⟨-1/2, 1/2, 0⟩ = some (⟨0, 0, 0⟩, ⟨0, 0, 0⟩) := suppO (by
    rw [B, support_list]; norm_num [Vec3.inner, Vec3.rev])
  have t1 : τ < 1 := by linarith
  obtain ⟨dd, hw⟩ := tri_result (τ := τ) h0.le (by linarith) (a := ⟨-1, 0, 0⟩) (b := ⟨0, 1, 0⟩) (c := ⟨0, 0, 0⟩) (x := 0) (y := 0) (z := 1)
    (cp := ⟨0, 0, 0⟩) (by norm_num [Tri3.outerProd, Vec3.outer, Vec3.sub, Vec3.isTol, zIsTol]; intro; linarith) le_rfl le_rfl (by norm_num) (by norm_num)
    (by norm_num [Spec.comb]) (by norm_num [Vec3.inner]) (by norm_num [Vec3.inner]) (by norm_num [Vec3.inner])
  rw [go (s2 := S4 1 (off ⟨-1, 0, 0⟩) (off ⟨0, 1, 0⟩) (on ⟨0, 0, 0⟩ 1) ini) (v2 := ⟨0, 0, 0⟩) hs
    (by rw [dup_S4, sub0]; norm_num) (by intro d h; obtain rfl := Option.some.inj h; norm_num [Vec3.inner, Vec3.sub]; linarith)
    (by rw [addSlot_S4_2 rfl rfl rfl, sub0])
    (closest_S4 (ys := [0, 1, 2]) (ws := [0, 0, 1]) (x0 := 0) (x1 := 0) (x2 := 1) (x3 := 0) (by rw [ys_S4]; rfl)
      (by simp only [weights]; erw [hw]; rfl) rfl rfl rfl rfl (by
      rw [prune_S4]; simp only [pr_live h0 t1, pr_dead h0, ntol t1 h0, tol0 h0]; rfl)) (by show 1 < 4; norm_num)]
  norm_num [Vec3.sqrNorm, Vec3.inner]

private theorem stepB4 {τ : ℝ} (h0 : 0 < τ) (junk : ℝ) (fuel : ℕ) :
    loop τ junk (supportMap B O) (fuel + 1) (S4 1 (off ⟨-1, 0, 0⟩) (off ⟨0, 1, 0⟩) (on ⟨0, 0, 0⟩ 1) ini) ⟨0, 0, 0⟩ (some 0) =
      some (.done (S4 1 (off ⟨-1, 0, 0⟩) (off ⟨0, 1, 0⟩) (on ⟨0, 0, 0⟩ 1) ini) ⟨0, 0, 0⟩) := by
  have hs : ∃ x, supportMap B O ⟨0, 0, 0⟩ = some (x, ⟨0, 0, 0⟩) := ⟨_, suppO (by
    rw [B, support_list])⟩
  obtain ⟨x, hs⟩ := hs
  rw [loop, hs]
  dsimp only
  rw [if_pos]
  right
  norm_num [Vec3.inner]; exact h0.le

/-- **Missed contact**: the origin belongs to both sets, but `zGJK` returns false. -/
theorem C51_missed_contact (τ : ℝ) (h0 : 0 < τ) (h1 : τ < 1/10) (junk : ℝ) (jv : Vec3 ℝ) :
    ∃ d1 d2 : Data (Vec3 ℝ), d1.WF ∧ d2.WF ∧ d1.Shows [⟨0, 1, 0⟩, ⟨-1, 0, 0⟩, ⟨0, 0, 0⟩] ∧ d2.Shows [⟨0, 0, 0⟩] ∧
      ∀ n, ∃ r c1 c2, gjk τ junk jv (n + 4) d1 d2 = some (.ret r c1 c2) ∧ ¬ r := by
  have wf : ∀ xs : List (Vec3 ℝ), (Data.assignList xs).WF := fun xs =>
    (Data.WF.rewind (d := .lst true xs none) (by intro k hk; cases hk)).1
  have sh : ∀ xs : List (Vec3 ℝ), (Data.assignList xs).Shows xs := fun xs => (wf xs).shows
  refine ⟨B, O, wf _, wf _, sh _, sh _, fun n => ?_⟩
  have hst : GJK.start τ junk (n + 4) B O = some (.done (S4 1 (off ⟨-1, 0, 0⟩) (off ⟨0, 1, 0⟩) (on ⟨0, 0, 0⟩ 1) ini) ⟨0, 0, 0⟩) := by
    have e : GJK.start τ junk (n + 4) B O = loop τ junk (supportMap B O) (n + 4) .init ((⟨0, 1, 0⟩ : Vec3 ℝ).sub ⟨0, 0, 0⟩) none := by
      simp [GJK.start, B, O, Data.assignList, Data.rewind, Data.peek]
    rw [e, sub0, stepB1 h0 h1, stepB2 h0 h1, stepB3 h0 h1, stepB4 h0]
  refine ⟨_, _, _, by rw [gjk, hst]; rfl, ?_⟩
  show ¬ Vec3.isTol ((⟨-1, 0, 0⟩ : Vec3 ℝ).sub ⟨0, 0, 0⟩) τ
  rw [sub0]
  norm_num [Vec3.isTol, zIsTol]; intro; linarith

/-- The hypotheses of `C51_return_partial` are met by two points one unit apart. -/
example (jv : Vec3 ℝ) : ∃ (d1 d2 : Data (Vec3 ℝ)) (s : Simplex) (v : Vec3 ℝ), d1.WF ∧ d2.WF ∧ d1.Shows [⟨1, 0, 0⟩] ∧ d2.Shows [⟨0, 0, 0⟩] ∧
    GJK.start 0 0 2 d1 d2 = some (.done s v) ∧ (∀ i, (s.slot i).swW = true ↔ i.val < s.n) := by
  have wf : ∀ xs : List (Vec3 ℝ), (Data.assignList xs).WF := fun xs =>
    (Data.WF.rewind (d := .lst true xs none) (by intro k hk; cases hk)).1
  have sh : ∀ xs : List (Vec3 ℝ), (Data.assignList xs).Shows xs := fun xs => (wf xs).shows
  have hsup : ∀ v, supportMap (Data.assignList [⟨1, 0, 0⟩]) O v = some (⟨1, 0, 0⟩, ⟨0, 0, 0⟩) := fun v =>
    suppO (by rw [support_list]; rfl)
  refine ⟨Data.assignList [⟨1, 0, 0⟩], O, S4 1 ⟨true, true, ⟨1, 0, 0⟩, ⟨1, 0, 0⟩, ⟨0, 0, 0⟩, 1⟩ ini ini ini, ⟨1, 0, 0⟩, wf _, wf _, sh _, sh _, ?_, ?_⟩
  · have e : GJK.start 0 0 2 (Data.assignList [⟨1, 0, 0⟩]) O =
        loop 0 0 (supportMap (Data.assignList [⟨1, 0, 0⟩]) O) 2 .init ((⟨1, 0, 0⟩ : Vec3 ℝ).sub ⟨0, 0, 0⟩) none := by
      simp [GJK.start, O, Data.assignList, Data.rewind, Data.peek]
    have z1 : ¬ zIsTol (1 : ℝ) 0 := by simp [zIsTol]
    have z0 : zIsTol (0 : ℝ) 0 := by simp [zIsTol]
    rw [e, go (s2 := S4 1 ⟨true, true, ⟨1, 0, 0⟩, ⟨1, 0, 0⟩, ⟨0, 0, 0⟩, 1⟩ ini ini ini) (v2 := ⟨1, 0, 0⟩) (hsup _) (by rintro ⟨i, h, -⟩; cases h)
      (by intro d h; cases h) (by rw [init_S4, addSlot_S4_0 rfl, sub0])
      (closest_S4 (ys := [0]) (ws := [1]) (x0 := 1) (x1 := 0) (x2 := 0) (x3 := 0) (by rw [ys_S4]; rfl) rfl rfl rfl rfl rfl (by
        rw [prune_S4]; simp [pr, z1, z0])) (by show 1 < 4; norm_num), loop, hsup]
    dsimp only
    rw [if_pos (Or.inl ⟨0, rfl, by simp [S4, Vec3.sub]⟩)]
  · decide

end
end Zeo

import Verif.Lemmas.Depth
import Verif.Props.C51
import Verif.Props.C75

/-! # C76: the penetration depth of two sets of points

`zGJKDepth` runs the Gilbert-Johnson-Keerthi loop and then grows a polyhedron of differences around the origin. The
theorems on its result are at tolerance zero. -/

namespace Zeo
open Spec GJK Depth Polar
noncomputable section
open Classical

/-! ## Linear scale factors -/

/-- **The factors of a point over a triangle.** If the foot of the point on the plane of the triangle is in the triangle, the
factors are the weights of the foot. The function then returns 0 and the point itself, also if the point is not in the plane. -/
theorem C76_linScale (t : Tri3 ℝ) (p q : Vec3 ℝ) (hn : triNormal (t.v0, t.v1, t.v2) ≠ .zero) (hq : q ∈ triangle t.v0 t.v1 t.v2)
    (h1 : dot (p.sub q) (t.v1.sub t.v0) = 0) (h2 : dot (p.sub q) (t.v2.sub t.v0) = 0) :
    ∃ l, t.linScale 0 p = some (0, l, p) ∧ (∀ i, 0 ≤ l i) ∧ l 0 + l 1 + l 2 = 1 ∧ q = comb (l 0) (l 1) (l 2) 0 t.v0 t.v1 t.v2 t.v0 := by
  obtain ⟨x, y, z, hx, hy, hz, hs, rfl⟩ := hq
  refine ⟨![x, y, z], linScale_foot ?_ hx hy hz hs h1 h2, ?_, hs, rfl⟩
  · intro h0
    refine hn ?_
    have q1 := congrArg Vec3.x h0
    have q2 := congrArg Vec3.y h0
    have q3 := congrArg Vec3.z h0
    simp only [Tri3.outerProd, Vec3.outer, Vec3.sub, Vec3.zero] at q1 q2 q3
    ext <;> simp only [triNormal, Vec3.zero] <;> linarith
  · intro i
    fin_cases i <;> assumption

/-- The hypotheses hold of a point above a right triangle. -/
example : ∃ l, (⟨⟨0, 0, 0⟩, ⟨4, 0, 0⟩, ⟨0, 4, 0⟩, ⟨0, 0, 1⟩⟩ : Tri3 ℝ).linScale 0 ⟨1, 2, 5⟩ = some (0, l, ⟨1, 2, 5⟩) ∧ l 0 = 1 / 4 := by
  obtain ⟨l, e, -, hs, hq⟩ := C76_linScale ⟨⟨0, 0, 0⟩, ⟨4, 0, 0⟩, ⟨0, 4, 0⟩, ⟨0, 0, 1⟩⟩ ⟨1, 2, 5⟩ ⟨1, 2, 0⟩
    (by simp [triNormal, Vec3.zero]) ⟨1 / 4, 1 / 4, 1 / 2, by norm_num, by norm_num, by norm_num, by norm_num, by
      simp only [comb]; norm_num⟩ (by simp [dot, Vec3.sub]) (by simp [dot, Vec3.sub])
  refine ⟨l, e, ?_⟩
  have a := congrArg Vec3.x hq
  have b := congrArg Vec3.y hq
  simp only [comb] at a b
  linarith

/-! ## The depth -/

private theorem vol_zero {w : Fin 4 → Vec3 ℝ} {n : Vec3 ℝ} (hn : dot n n = 1) {c : ℝ} (h : ∀ i, dot n (w i) = c) : vol w = 0 := by
  have h0 := h 0
  have h1 := h 1
  have h2 := h 2
  have h3 := h 3
  have e : ∀ k : ℝ, vol w * k * 1 = vol w * k * dot n n := fun k => by rw [hn]
  unfold dot at h0 h1 h2 h3 hn
  have a1 : n.x * ((w 1).x - (w 0).x) + n.y * ((w 1).y - (w 0).y) + n.z * ((w 1).z - (w 0).z) = 0 := by linarith
  have a2 : n.x * ((w 2).x - (w 0).x) + n.y * ((w 2).y - (w 0).y) + n.z * ((w 2).z - (w 0).z) = 0 := by linarith
  have a3 : n.x * ((w 3).x - (w 0).x) + n.y * ((w 3).y - (w 0).y) + n.z * ((w 3).z - (w 0).z) = 0 := by linarith
  simp only [vol, Vec3.inner, Vec3.outer, Vec3.sub]
  generalize (w 1).x - (w 0).x = x1 at *
  generalize (w 1).y - (w 0).y = y1 at *
  generalize (w 1).z - (w 0).z = z1 at *
  generalize (w 2).x - (w 0).x = x2 at *
  generalize (w 2).y - (w 0).y = y2 at *
  generalize (w 2).z - (w 0).z = z2 at *
  generalize (w 3).x - (w 0).x = x3 at *
  generalize (w 3).y - (w 0).y = y3 at *
  generalize (w 3).z - (w 0).z = z3 at *
  have ex : (x1 * (y2 * z3 - z2 * y3) + y1 * (z2 * x3 - x2 * z3) + z1 * (x2 * y3 - y2 * x3)) * n.x = 0 := by
    linear_combination (y2 * z3 - z2 * y3) * a1 + (z1 * y3 - y1 * z3) * a2 + (y1 * z2 - z1 * y2) * a3
  have ey : (x1 * (y2 * z3 - z2 * y3) + y1 * (z2 * x3 - x2 * z3) + z1 * (x2 * y3 - y2 * x3)) * n.y = 0 := by
    linear_combination (z2 * x3 - x2 * z3) * a1 + (x1 * z3 - z1 * x3) * a2 + (z1 * x2 - x1 * z2) * a3
  have ez : (x1 * (y2 * z3 - z2 * y3) + y1 * (z2 * x3 - x2 * z3) + z1 * (x2 * y3 - y2 * x3)) * n.z = 0 := by
    linear_combination (x2 * y3 - y2 * x3) * a1 + (y1 * x3 - x1 * y3) * a2 + (x1 * y2 - y1 * x2) * a3
  linear_combination n.x * ex + n.y * ey + n.z * ez - (x1 * (y2 * z3 - z2 * y3) + y1 * (z2 * x3 - x2 * z3) + z1 * (x2 * y3 - y2 * x3)) * hn

section
variable {xs ys : List (Vec3 ℝ)} {d1 d2 : Data (Vec3 ℝ)}

private theorem pinit_four {s : Simplex} (h : s.n = 4) : s.pinit =
    ⟨[⟨(s.slot 0).w, (s.slot 0).p1, (s.slot 0).p2⟩, ⟨(s.slot 1).w, (s.slot 1).p1, (s.slot 1).p2⟩,
      ⟨(s.slot 2).w, (s.slot 2).p1, (s.slot 2).p2⟩, ⟨(s.slot 3).w, (s.slot 3).p1, (s.slot 3).p2⟩],
     Data.lst false [(s.slot 0).w, (s.slot 1).w, (s.slot 2).w, (s.slot 3).w] none⟩ := by
  have e : ((List.finRange 4).filter fun i => decide (i.val < 4)) = [0, 1, 2, 3] := by decide
  unfold Simplex.pinit
  rw [h, e]
  rfl

private theorem good_four {s : Simplex} {v : Vec3 ℝ} (hL : Live 0 (Pairs xs ys) s v) (h4 : s.n = 4) :
    Good xs ys s.pinit ∧ Stop xs ys s.pinit .zero := by
  have hall : ∀ i, (s.slot i).swW = true := by
    have hn := hL.n
    rw [h4] at hn
    have : ∀ b : Fin 4 → Bool, 4 = (idx b).length → ∀ i, b i = true := by decide
    exact this _ hn
  obtain ⟨L, ht, hs, hyy⟩ := hL.lam
  have hL0 : ∀ i, 0 < L i := by
    intro i
    refine lt_of_le_of_ne (ht.nonneg i) fun h0 => ?_
    have := (hL.sw i).1 (hall i)
    rw [hs i, ← h0] at this
    simp at this
  have hY : ∀ i, (s.slot i).swY = true := fun i => hyy i (hL0 i).ne'
  have hv : v = .zero := ht.four fun i => (hL0 i).ne'
  have hvol : vol (fun i => (s.slot i).w) ≠ 0 := by
    have := hL.nondeg
    have e : idx (fun i => (s.slot i).swY) = [0, 1, 2, 3] := by
      have : (fun i => (s.slot i).swY) = fun _ => true := funext hY
      rw [this]; decide
    rw [e] at this
    exact this
  rw [pinit_four h4]
  refine ⟨⟨rfl, ?_, ?_, ?_⟩, ?_⟩
  · intro x hx
    simp only [List.mem_cons, List.not_mem_nil, or_false] at hx
    rcases hx with rfl | rfl | rfl | rfl <;> exact hL.pts _ (hY _)
  · simp only [List.map_cons, List.map_nil]
    simp only [vol] at hvol
    refine List.nodup_cons.2 ⟨?_, List.nodup_cons.2 ⟨?_, List.nodup_cons.2 ⟨?_, List.nodup_singleton _⟩⟩⟩
    · simp only [List.mem_cons, List.not_mem_nil, or_false]
      rintro (h | h | h) <;> refine hvol ?_ <;> rw [h] <;> simp only [Vec3.inner, Vec3.outer, Vec3.sub] <;> ring
    · simp only [List.mem_cons, List.not_mem_nil, or_false]
      rintro (h | h) <;> refine hvol ?_ <;> rw [h] <;> simp only [Vec3.inner, Vec3.outer, Vec3.sub] <;> ring
    · simp only [List.mem_cons, List.not_mem_nil, or_false]
      rintro h; refine hvol ?_; rw [h]; simp only [Vec3.inner, Vec3.outer, Vec3.sub]; ring
  · intro n hn
    by_contra hcon
    push Not at hcon
    simp only [List.map_cons, List.map_nil] at hcon
    have hle : ∀ i, dot n (s.slot i).w ≤ 0 := by
      intro i
      refine hcon _ ?_
      fin_cases i <;> simp
    have hsum : ∑ i, L i * dot n (s.slot i).w = 0 := by
      have h0 := ht.comb
      rw [hv] at h0
      have q1 := congrArg Vec3.x h0
      have q2 := congrArg Vec3.y h0
      have q3 := congrArg Vec3.z h0
      simp only [csum, Vec3.zero, Fin.sum_univ_four] at q1 q2 q3
      rw [Fin.sum_univ_four]
      unfold dot
      linear_combination -n.x * q1 - n.y * q2 - n.z * q3
    refine hvol (vol_zero hn (c := 0) fun i => ?_)
    have := (Finset.sum_eq_zero_iff_of_nonpos fun i _ => mul_nonpos_of_nonneg_of_nonpos (hL0 i).le (hle i)).1 hsum i (Finset.mem_univ i)
    exact (mul_eq_zero.1 this).resolve_left (hL0 i).ne'
  · intro n h hn hp e
    exfalso
    have e2 : dot (Vec3.zero : Vec3 ℝ) .zero = dot (n.mul h) (n.mul h) := by rw [← e]
    rw [dot_mul, dot_comm (n.mul h), dot_mul, hn] at e2
    simp only [dot, Vec3.zero] at e2
    nlinarith

/-- **The depth is exact and the loops end** (zero tolerance). Let the convex hulls of the two sets have a point in common, and
let no triangle of differences of their points have the origin in it. After enough rounds `zGJKDepth` has returned true, and
the difference of its two points is a shortest translation that takes the hulls apart. Missing: positive tolerances, and
sets whose differences have the origin in a triangle (`C76_first_false`). -/
theorem C76_depth_partial (sort) (junk : ℝ) (jv : Vec3 ℝ) (w1 : d1.WF) (w2 : d2.WF) (s1 : d1.Shows xs) (s2 : d2.Shows ys)
    (hc : ∃ c, InHull {x | x ∈ xs} c ∧ InHull {x | x ∈ ys} c)
    (hgen : ∀ a ∈ differences xs ys, ∀ b ∈ differences xs ys, ∀ c ∈ differences xs ys, Vec3.zero ∉ triangle a b c) :
    ∃ N, ∀ fuel, N ≤ fuel → ∃ c1 c2, gjkDepth 0 sort junk jv fuel d1 d2 = some (.ret True c1 c2) ∧ IsDepth xs ys c1 c2 := by
  obtain ⟨c, hcx, hcy⟩ := hc
  have nonempty : ∀ {l : List (Vec3 ℝ)}, InHull {x | x ∈ l} c → l ≠ [] := by
    rintro l ⟨n, L, p, hp, -, hs, -⟩ rfl
    cases n with
    | zero => simp at hs
    | succ n => exact absurd (hp 0) (by simp)
  have hx := nonempty hcx
  have hy := nonempty hcy
  obtain ⟨N, hN⟩ := C51_nearest_partial junk jv d1 d2 w1 w2 xs ys s1 s2 hx hy
  refine ⟨max N (xs.length * ys.length + 1), fun fuel hf => ?_⟩
  obtain ⟨r, c1, c2, hg, -, -, hmin⟩ := hN fuel ((le_max_left _ _).trans hf)
  have hg' := hg
  rw [gjk, Option.map_eq_some_iff] at hg'
  obtain ⟨o, ho, hfin⟩ := hg'
  obtain ⟨s, v, rfl, hL, -⟩ := start_live le_rfl (by norm_num) junk w1 w2 s1 s2 hx hy ho
  obtain ⟨L, ht, hs, hyy⟩ := hL.lam
  have hsL' : ∀ i, (s.slot i).s = L i := by
    intro i
    rw [hs i]
    split
    · rename_i h; exact (le_antisymm h (ht.nonneg i)).symm
    · rfl
  have hsL : (fun i => (s.slot i).s) = L := funext hsL'
  simp only [finish, Res.ret.injEq] at hfin
  obtain ⟨-, e1, e2⟩ := hfin
  have h0 := hmin c c hcx hcy
  have hcc : c1 = c2 := by
    simp only [sqd] at h0
    ext <;> nlinarith [sq_nonneg (c1.x - c2.x), sq_nonneg (c1.y - c2.y), sq_nonneg (c1.z - c2.z)]
  have hv : v = .zero := by
    have k1 := pair_csum hL.toInv Slot.p1
    have k2 := pair_csum hL.toInv Slot.p2
    rw [hsL, e1] at k1
    rw [hsL, e2, ← hcc] at k2
    have k : ∀ f : Vec3 ℝ → ℝ, (∀ a b : Vec3 ℝ, f (a.sub b) = f a - f b) →
        ∑ i, L i * f (s.slot i).w = ∑ i, L i * f (s.slot i).p1 - ∑ i, L i * f (s.slot i).p2 := by
      intro f hf
      rw [← Finset.sum_sub_distrib]
      refine Finset.sum_congr rfl fun i _ => ?_
      by_cases h0 : L i = 0
      · rw [h0]; ring
      · rw [(hL.pts i (hyy i h0)).1, hf]; ring
    have k3 := k1.symm.trans k2
    rw [ht.comb]
    ext
    · exact (k Vec3.x fun _ _ => rfl).trans (by have := congrArg Vec3.x k3; simp only [csum] at this; rw [this]; exact sub_self _)
    · exact (k Vec3.y fun _ _ => rfl).trans (by have := congrArg Vec3.y k3; simp only [csum] at this; rw [this]; exact sub_self _)
    · exact (k Vec3.z fun _ _ => rfl).trans (by have := congrArg Vec3.z k3; simp only [csum] at this; rw [this]; exact sub_self _)
  have hL0 : ∀ i, L i ≠ 0 := by
    intro i hi
    obtain ⟨m, hm⟩ : ∃ m, L m ≠ 0 := by
      by_contra hcon
      push Not at hcon
      have := ht.sum
      rw [Finset.sum_eq_zero fun i _ => hcon i] at this
      exact zero_ne_one this
    set w' : Fin 4 → Vec3 ℝ := fun j => if L j = 0 then (s.slot m).w else (s.slot j).w with hw'
    have hd : ∀ j, w' j ∈ differences xs ys := by
      intro j
      have key : ∀ j, L j ≠ 0 → (s.slot j).w ∈ differences xs ys := fun j hj => by
        obtain ⟨e, h1, h2⟩ := hL.pts j (hyy j hj)
        exact ⟨_, h1, _, h2, e⟩
      simp only [hw']
      split
      · exact key m hm
      · rename_i h; exact key j h
    have hsum := ht.sum
    have hz : ∀ f : Vec3 ℝ → ℝ, ∑ j, L j * f (s.slot j).w = ∑ j, L j * f (w' j) := by
      intro f
      refine Finset.sum_congr rfl fun j _ => ?_
      by_cases h : L j = 0
      · rw [h, zero_mul, zero_mul]
      · simp only [hw', if_neg h]
    have hcomb := ht.comb
    rw [hv] at hcomb
    have zx := congrArg Vec3.x hcomb
    have zy := congrArg Vec3.y hcomb
    have zz := congrArg Vec3.z hcomb
    simp only [csum] at zx zy zz
    rw [hz Vec3.x] at zx
    rw [hz Vec3.y] at zy
    rw [hz Vec3.z] at zz
    simp only [Vec3.zero, Fin.sum_univ_four] at zx zy zz hsum
    have hnn := ht.nonneg
    have fin : ∀ a b c : Fin 4, L a + L b + L c = 1 → (∀ f : Vec3 ℝ → ℝ, L 0 * f (w' 0) + L 1 * f (w' 1) + L 2 * f (w' 2) + L 3 * f (w' 3) =
        L a * f (w' a) + L b * f (w' b) + L c * f (w' c)) → False := by
      intro a b c h1 hf
      refine hgen _ (hd a) _ (hd b) _ (hd c) ⟨L a, L b, L c, hnn a, hnn b, hnn c, h1, ?_⟩
      ext
      · have := hf Vec3.x; simp only [Vec3.zero, comb]; linarith
      · have := hf Vec3.y; simp only [Vec3.zero, comb]; linarith
      · have := hf Vec3.z; simp only [Vec3.zero, comb]; linarith
    fin_cases i
    · have hi : L 0 = 0 := hi
      exact fin 1 2 3 (by rw [hi] at hsum; linarith) fun f => by rw [hi]; ring
    · have hi : L 1 = 0 := hi
      exact fin 0 2 3 (by rw [hi] at hsum; linarith) fun f => by rw [hi]; ring
    · have hi : L 2 = 0 := hi
      exact fin 0 1 3 (by rw [hi] at hsum; linarith) fun f => by rw [hi]; ring
    · have hi : L 3 = 0 := hi
      exact fin 0 1 2 (by rw [hi] at hsum; linarith) fun f => by rw [hi]; ring
  have h4 : s.n = 4 := by
    rw [hL.n]
    have : (fun i => (s.slot i).swW) = fun _ => true := funext fun i => (hL.sw i).2 (by rw [hsL' i]; exact hL0 i)
    rw [this]; decide
  obtain ⟨hgood, hstop⟩ := good_four hL h4
  obtain ⟨slots, ph, f, v, h, v', hloop, hvv, hE⟩ := loop_end (sort := sort) w1 w2 s1 s2 hx hy fuel s.pinit .zero hgood hstop (by
    have := (le_max_right N (xs.length * ys.length + 1)).trans hf
    omega)
  obtain ⟨q1, q2, hq, hdep⟩ := finish_depth hE hvv
  refine ⟨q1, q2, ?_, hdep⟩
  have hcheck : s.check 0 jv := by simp [Simplex.check, h4]
  have hinit : pdInit 0 sort d1 d2 s = some (some s.pinit) := by
    unfold pdInit; rw [h4]; rfl
  unfold gjkDepth
  rw [ho, Option.bind_some]
  dsimp only
  rw [if_pos hcheck, pd, hinit]
  dsimp only
  rw [hloop]
  simp only [Option.map_some, hq]

/-- What it means: no translation shorter than that of `IsDepth` puts a plane between the hulls (strictly on one side). -/
theorem C76_shortest {c1 c2 : Vec3 ℝ} (h : IsDepth xs ys c1 c2) (s u : Vec3 ℝ) (k : ℝ)
    (hs : ∀ a ∈ xs, dot u a < k) (ht : ∀ b ∈ ys, k ≤ dot u (b.add s)) : ed c1 c2 < Real.sqrt (dot s s) := by
  by_contra hcon
  push Not at hcon
  have e : sqd c1 c2 = dot (c1.sub c2) (c1.sub c2) := by simp only [sqd, dot, Vec3.sub]; ring
  have hle : dot s s ≤ dot (c1.sub c2) (c1.sub c2) := by
    rw [← e]
    exact (Real.sqrt_le_sqrt_iff (by simp only [sqd]; positivity)).1 hcon
  obtain ⟨a, b, ha, hb, rfl⟩ := h.least s hle
  have k2 := QHGeom.dot_hull_le (S := {x | x ∈ ys}) (w := u.mul (-1)) (k := dot u s - k) (fun b hb => by
    have := ht b hb
    rw [dot_add] at this
    rw [dot_comm, dot_mul, dot_comm]; linarith) hb
  rw [dot_comm, dot_mul, dot_comm] at k2
  obtain ⟨k', hk', hk''⟩ : ∃ k' < k, ∀ a ∈ xs, dot u a ≤ k' := by
    obtain ⟨n, L, p, hp, -, hsum, -⟩ := ha
    cases n with
    | zero => simp at hsum
    | succ n =>
      obtain ⟨m, hm, hm2⟩ := xs.toFinset.exists_max_image (fun a => dot u a) ⟨p 0, List.mem_toFinset.2 (hp 0)⟩
      exact ⟨_, hs m (List.mem_toFinset.1 hm), fun a ha => hm2 a (List.mem_toFinset.2 ha)⟩
  have k1 := QHGeom.dot_hull_le (S := {x | x ∈ xs}) (w := u) hk'' ha
  rw [dot_add] at k1
  linarith

end

/-- The hypotheses hold of a tetrahedron and a point in it. -/
example (sort) (junk : ℝ) (jv : Vec3 ℝ) : ∃ N, ∀ fuel, N ≤ fuel → ∃ c1 c2,
    gjkDepth 0 sort junk jv fuel (Data.assignArray [⟨1, 1, 1⟩, ⟨1, -1, -1⟩, ⟨-1, 1, -1⟩, ⟨-1, -1, 1⟩]) (Data.assignArray [⟨0, 0, 0⟩]) =
        some (.ret True c1 c2) ∧
      IsDepth [⟨1, 1, 1⟩, ⟨1, -1, -1⟩, ⟨-1, 1, -1⟩, ⟨-1, -1, 1⟩] [⟨0, 0, 0⟩] c1 c2 := by
  refine C76_depth_partial sort junk jv (C35_wf [] (⟨0, 0, 0⟩ : Vec3 ℝ) 0 _).2.2.1 (C35_wf [] (⟨0, 0, 0⟩ : Vec3 ℝ) 0 _).2.2.1
    (C35_readonly _ [] ⟨0, 0, 0⟩).1 (C35_readonly _ [] ⟨0, 0, 0⟩).1 ⟨⟨0, 0, 0⟩, ?_, hull_self (by simp)⟩ ?_
  · refine ⟨4, fun _ => 1 / 4, ![⟨1, 1, 1⟩, ⟨1, -1, -1⟩, ⟨-1, 1, -1⟩, ⟨-1, -1, 1⟩], ?_, fun _ => by norm_num, by norm_num, ?_⟩
    · intro i; fin_cases i <;> simp
    · simp [Fin.sum_univ_four]
  · rintro a ⟨p, hp, q, hq, rfl⟩ b ⟨p', hp', q', hq', rfl⟩ c ⟨p'', hp'', q'', hq'', rfl⟩ ⟨x, y, z, hx, hy, hz, hs, e⟩
    simp only [List.mem_cons, List.not_mem_nil, or_false] at hp hp' hp'' hq hq' hq''
    subst hq hq' hq''
    have e1 := congrArg Vec3.x e
    have e2 := congrArg Vec3.y e
    have e3 := congrArg Vec3.z e
    rcases hp with rfl | rfl | rfl | rfl <;> rcases hp' with rfl | rfl | rfl | rfl <;> rcases hp'' with rfl | rfl | rfl | rfl <;>
      · simp only [comb, Vec3.sub, Vec3.zero] at e1 e2 e3
        linarith

/-! ## Sets with the same first point -/

private theorem support_head {d : Data (Vec3 ℝ)} (h : d.WF) {a : Vec3 ℝ} {l : List (Vec3 ℝ)} (hs : d.Shows (a :: l)) {dir : Vec3 ℝ}
    (hd : dir = .zero) : d.support3 dir = some a := by
  have hc : d.contents = a :: l := C35_shows_unique d _ _ h.shows hs
  unfold Data.support3 Data.supportWith
  rw [if_neg (by rw [Data.isEmpty_iff h, hc]; simp)]
  obtain ⟨r1, r2, r3⟩ := h.rewind
  obtain ⟨f1, f2, f3, f4, f5⟩ := r1.fetch
  rcases hf : d.rewind.fetch with ⟨_ | sp, d'⟩
  · rw [hf] at f3
    rw [r2, r3, hc] at f3
    cases f3
  · rw [hf] at f1 f2 f3 f4
    dsimp only at f1 f2 f3 f4 ⊢
    rw [r2] at f2 f3 f4
    rw [r3] at f3 f4
    rw [(f1.loop _ (d.size + 1) _ (by rw [f2, Data.size_eq h]; omega)).1, f2, f4, hc]
    rw [hc] at f3
    have f3 : sp = a := Option.some.inj f3
    subst f3
    have z : ∀ v : Vec3 ℝ, v.inner dir = 0 := fun v => by rw [hd]; simp [Vec3.inner, Vec3.zero]
    have : ∀ l : List (Vec3 ℝ), l.foldl (fun (s : Vec3 ℝ × ℝ) v => if v.inner dir > s.2 then (v, v.inner dir) else s) (sp, sp.inner dir) =
        (sp, sp.inner dir) := by
      intro l
      induction l with
      | nil => rfl
      | cons b l ih => rw [List.foldl_cons, if_neg (by rw [z, z]; exact lt_irrefl _), ih]
    rw [this]

/-- **Sets with the same first point have no depth**: if the first points of the two sets are equal, `zGJKDepth` returns
false, however deep the convex hulls overlap. -/
theorem C76_first_false (τ : ℝ) (hτ : 0 ≤ τ) (hτ' : τ ≤ 1 / 4) (sort) (junk : ℝ) (jv : Vec3 ℝ) (a : Vec3 ℝ) (xs ys : List (Vec3 ℝ))
    (d1 d2 : Data (Vec3 ℝ)) (w1 : d1.WF) (w2 : d2.WF) (s1 : d1.Shows (a :: xs)) (s2 : d2.Shows (a :: ys)) (fuel : ℕ) :
    ∃ c1 c2, gjkDepth τ sort junk jv (fuel + 2) d1 d2 = some (.ret False c1 c2) := by
  have z1 : a.sub a = .zero := by ext <;> simp [Vec3.sub, Vec3.zero]
  have z2 : (Vec3.zero : Vec3 ℝ).rev = .zero := by ext <;> simp [Vec3.rev, Vec3.zero]
  have hsup : supportMap d1 d2 .zero = some (a, a) := by
    rw [supportMap, support_head w1 s1 z2, support_head w2 s2 rfl]
  have hd : ¬ Simplex.init.checkDup (a.sub a) := by rintro ⟨i, hi, -⟩; cases hi
  obtain ⟨k, t1, t2, v2, ha, hc, hI, hk, hw, hkw, -, -, hy, -, -⟩ := round hτ hτ' junk (pre_init (Pairs (a :: xs) (a :: ys)) .zero)
    (by decide) (p1 := a) (p2 := a) ⟨by simp, by simp⟩ hd (fun h => by cases h)
  have hyk : ∀ i, (t2.slot i).swY = true ↔ i = k := by
    intro i; rw [hy i]
    exact ⟨fun h => h.resolve_left (by intro h; cases h), Or.inr⟩
  have hz : ∀ i, (t2.slot i).w = .zero := by
    intro i
    by_cases hi : i = k
    · rw [hi, hkw, z1]
    · rw [(hw i hi).1]; rfl
  obtain ⟨L, ht, hs, hyy⟩ := hI.lam
  have hLi : ∀ i, i ≠ k → L i = 0 := by
    intro i hi
    by_contra h
    exact hi ((hyk i).1 (hyy i h))
  have hLk : L k = 1 := by
    have := ht.sum
    rwa [Finset.sum_eq_single k (fun i _ hi => hLi i hi) (by simp)] at this
  have hn : t2.n = 1 := by
    rw [hI.n]
    have : (fun i => (t2.slot i).swW) = fun i => decide (i = k) := by
      funext i
      by_cases hi : i = k
      · subst hi
        have : (t2.slot i).swW = true := (hI.sw i).2 (by rw [hs, hLk, if_neg (by linarith)]; norm_num)
        rw [this]; simp
      · have : (t2.slot i).swW ≠ true := fun h => (hI.sw i).1 h (by rw [hs, hLi i hi, if_pos hτ])
        simp [this, hi]
    rw [this]
    clear * -
    revert k; decide
  have hv2 : v2 = .zero := by
    rw [ht.comb]
    ext <;> simp only [csum, hz, Vec3.zero, mul_zero, Finset.sum_const_zero]
  have hstart : GJK.start τ junk (fuel + 2) d1 d2 = some (.done t2 v2) := by
    unfold GJK.start
    rw [first_peek w1 s1, first_peek w2 s2]
    dsimp only [List.head?_cons]
    rw [z1, loop, hsup]
    dsimp only
    rw [if_neg (by rintro (h | ⟨d, h, -⟩); exacts [hd h, by cases h]), ha]
    dsimp only
    rw [hc]
    dsimp only
    rw [if_pos (by rw [hn]; norm_num), hv2, loop, hsup]
    dsimp only
    rw [if_pos (Or.inl ⟨k, (hyk k).2 rfl, by rw [hkw]⟩)]
  refine ⟨t2.pair Slot.p1, t2.pair Slot.p2, ?_⟩
  · unfold gjkDepth
    rw [hstart, Option.bind_some]
    dsimp only
    have hcheck : t2.check τ jv := by
      unfold Simplex.check
      rw [hn, hz]
      simp [Vec3.sub, Vec3.zero, Vec3.isTol, zIsTol, hτ]
    have hinit : pdInit τ sort d1 d2 t2 = some none := by unfold pdInit; rw [hn]; rfl
    rw [if_pos hcheck, pd, hinit]

/-! ## The intersection of polyhedra with this depth -/

section
variable {sort : (Vec3 ℝ → Vec3 ℝ → ℤ) → List (Vec3 ℝ) → List (Vec3 ℝ)} {maxIter : ℕ} {old : Vec3 ℝ} {junk : ℝ} {jv : Vec3 ℝ}
  {ph1 ph2 : PH ℝ}

private theorem vert_head {ph : PH ℝ} (h : 0 < ph.nv) : ∃ l, ph.vertArray = ph.vert 0 :: l := by
  unfold PH.vertArray
  obtain ⟨n, hn⟩ : ∃ n, ph.nv = n + 1 := ⟨ph.nv - 1, by omega⟩
  rw [hn, List.range_succ_eq_map, List.map_cons]
  exact ⟨_, rfl⟩

/-- **Polyhedra with the same first vertex have no intersection**: `zIntersectPH3D` returns NULL, in particular for a
polyhedron and itself. -/
theorem C76_intersect_false (τ : ℝ) (hτ : 0 ≤ τ) (hτ' : τ ≤ 1 / 4) (h1 : 0 < ph1.nv) (h2 : 0 < ph2.nv) (h : ph1.vert 0 = ph2.vert 0)
    (fuel : ℕ) : intersectPH τ sort maxIter (depthOf τ sort junk jv (fuel + 2)) ph1 ph2 old = none := by
  obtain ⟨l1, e1⟩ := vert_head h1
  obtain ⟨l2, e2⟩ := vert_head h2
  obtain ⟨c1, c2, e⟩ := C76_first_false τ hτ hτ' sort junk jv (ph1.vert 0) l1 l2 (Data.assignArray ph1.vertArray)
    (Data.assignArray ph2.vertArray) (C35_wf [] (⟨0, 0, 0⟩ : Vec3 ℝ) 0 _).2.2.1 (C35_wf [] (⟨0, 0, 0⟩ : Vec3 ℝ) 0 _).2.2.1
    (by rw [← e1]; exact (C35_readonly _ [] ⟨0, 0, 0⟩).1) (by rw [h, ← e2]; exact (C35_readonly _ [] ⟨0, 0, 0⟩).1) fuel
  unfold intersectPH depthOf
  rw [e]
  simp

/-- **The intersection with the depth that the code computes** (zero tolerance). Let the vertices of the two polyhedra have
overlapping convex hulls and no triangle of differences with the origin in it. After enough rounds of the loops
`zIntersectPH3D` works from a pair of points where the penetration depth is attained. If their distance is below the
threshold it returns NULL; if it is not, and the midpoint is behind all faces by at least
`ZEO_TRI3D_DUALXFORM_MIN_OFFSET`, it returns the intersection. Missing: midpoints nearer to a face or outside
(`C75_contains`, `C75_clamp_false`). -/
theorem C76_intersect_partial (hf1 : FlatFaces ph1) (hf2 : FlatFaces ph2)
    (hc : ∃ c, InHull {x | x ∈ ph1.vertArray} c ∧ InHull {x | x ∈ ph2.vertArray} c)
    (hgen : ∀ a ∈ differences ph1.vertArray ph2.vertArray, ∀ b ∈ differences ph1.vertArray ph2.vertArray,
      ∀ c ∈ differences ph1.vertArray ph2.vertArray, Vec3.zero ∉ triangle a b c) :
    ∃ N, ∀ fuel, N ≤ fuel → ∃ c1 c2, IsDepth ph1.vertArray ph2.vertArray c1 c2 ∧
      (ed c1 c2 < 1 / 10000 → intersectPH 0 sort maxIter (depthOf 0 sort junk jv fuel) ph1 ph2 old = none) ∧
      (1 / 10000 ≤ ed c1 c2 →
        (∀ f ∈ ph1.face, height ⟨ph1.vert f.i0, f.norm⟩ (c1.mid c2) ≤ -(1 / 100000)) →
        (∀ f ∈ ph2.face, height ⟨ph2.vert f.i0, f.norm⟩ (c1.mid c2) ≤ -(1 / 100000)) →
        (∀ x ∈ behind ph1 ∩ behind ph2, ed x (c1.mid c2) ≤ 100000) →
        ∃ ph, intersectPH 0 sort maxIter (depthOf 0 sort junk jv fuel) ph1 ph2 old = some ph ∧
          behind ph = behind ph1 ∩ behind ph2 ∧
          (∀ x, InHull {v | ∃ i < ph.nv, v = ph.vert i} x ↔ x ∈ behind ph1 ∩ behind ph2) ∧
          Valid ph ∧ Closed (faceIdx ph)) := by
  obtain ⟨N, hN⟩ := C76_depth_partial (d1 := Data.assignArray ph1.vertArray) (d2 := Data.assignArray ph2.vertArray) sort junk jv
    (C35_wf [] (⟨0, 0, 0⟩ : Vec3 ℝ) 0 _).2.2.1 (C35_wf [] (⟨0, 0, 0⟩ : Vec3 ℝ) 0 _).2.2.1
    (C35_readonly _ [] ⟨0, 0, 0⟩).1 (C35_readonly _ [] ⟨0, 0, 0⟩).1 hc hgen
  refine ⟨N, fun fuel hf => ?_⟩
  obtain ⟨c1, c2, e, hd⟩ := hN fuel hf
  have hdep : depthOf 0 sort junk jv fuel ph1.vertArray ph2.vertArray = some (c1, c2) := by
    unfold depthOf; rw [e]; simp
  refine ⟨c1, c2, hd, fun hlt => C75_shallow fun c hc => ?_, fun k1 k2 k3 k4 => ?_⟩
  · rw [hdep] at hc
    obtain rfl := Option.some.inj hc
    exact hlt
  · obtain ⟨τ₀, h0, hk⟩ := C75_small_partial (sort := sort) (maxIter := maxIter) (old := old) hf1 hf2 hdep k1 k2 k3 k4
    obtain ⟨ph, r1, r2, r3, r4, -, r5, -⟩ := hk 0 le_rfl h0.le
    exact ⟨ph, r1, r2, r3, r4, r5⟩

end
end
end Zeo

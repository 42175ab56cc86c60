import Verif.Lemmas.DelMargin
import Verif.Props.C39

/-!
# C71: Delaunay triangulation in the plane

`triangulate` is `zVec2DDataDelaunayTriangulate`: `none` when something undefined is done or a value is not a number (or
the number of rounds allowed to the repair of a triangle is exceeded), `some none` when false is returned.
-/

namespace Zeo
open Del DelG

/-- If the bounding disk has the data within 3/2 of its radius, the points are different and the tolerance resolves them, the
triangulation succeeds, with no more than 4n+5 rounds of repair for each point, and delivers a Delaunay triangulation: the
corners of the triangles are data, the triangles are counterclockwise, have no common inner point, the circles around them
are empty, and every three points whose circle has the other points and the corners of the enclosing triangle outside form
one of the triangles. -/
theorem C71_delaunay (τ : ℝ) (hτ : 0 < τ) (d : Data (Vec2 ℝ)) (hd : d.WF) (xs : List (Vec2 ℝ)) (hx : d.Shows xs)
    (hne : xs ≠ []) (hnd : xs.Nodup) (b : Ball2) (hb : boundingBall2Recursive τ d = some b)
    (hin : ∀ x ∈ xs, Spec.ed2 b.ball.center x < 3 / 2 * b.ball.radius) (hres : Spec.Resolves2 τ (outer b.ball ++ xs))
    (fuel : ℕ) (hf : 4 * xs.length + 5 ≤ fuel) :
    ∃ s, triangulate τ fuel d = some (some s) ∧ Spec.IsDelaunay xs (outer b.ball) (tris (posOf b.ball xs) s) := by
  obtain rfl := C35_shows_unique d _ _ hx (C35_toAddrList d hd)
  have hr : 0 < b.ball.radius := by
    obtain ⟨x, hxm⟩ := List.exists_mem_of_ne_nil _ hne
    have := hin x hxm
    have q : 0 ≤ Spec.ed2 b.ball.center x := Real.sqrt_nonneg _
    linarith
  have hO := outer_ok hr hin
  obtain ⟨s, e, G⟩ := insert_ok hτ (fuel := fuel) hO hnd hres hf
  have hn : b.num ≠ 0 := fun h0 => by
    have := C39_recursive2D_none τ hτ d b hb h0
    linarith
  refine ⟨purge s, ?_, purge_delaunay hO hnd G.good⟩
  rw [triangulate, build, hb]
  simp only [if_neg hn]
  rw [e]
  rfl

/-- What is between the triangles: a point inside the enclosing triangle is in a triangle of the result or in one of the
triangles that were removed, which have a corner of the enclosing triangle among their corners and an empty circle. The
neighbour pointers are all set, and a neighbour that was not removed points back and has the common edge in the opposite
direction. But unless the result is empty, some of the pointers lead to triangles that were removed, whose memory was freed;
`zDelaunayTri2DListVoronoi2DFPrint` follows every pointer that is not NULL, so it always reads freed memory. -/
theorem C71_rest (τ : ℝ) (hτ : 0 < τ) (d : Data (Vec2 ℝ)) (hd : d.WF) (xs : List (Vec2 ℝ)) (hx : d.Shows xs)
    (hne : xs ≠ []) (hnd : xs.Nodup) (b : Ball2) (hb : boundingBall2Recursive τ d = some b)
    (hin : ∀ x ∈ xs, Spec.ed2 b.ball.center x < 3 / 2 * b.ball.radius) (hres : Spec.Resolves2 τ (outer b.ball ++ xs))
    (fuel : ℕ) (hf : 4 * xs.length + 5 ≤ fuel) (s : St) (hs : triangulate τ fuel d = some (some s)) :
    (∀ a b' c q, outer b.ball = [a, b', c] → q ∈ Spec.inner2 a b' c →
      (∃ t ∈ tris (posOf b.ball xs) s, q ∈ Spec.triangle2 t.1 t.2.1 t.2.2) ∨
      ∃ u v w, u ∈ outer b.ball ∧ v ∈ outer b.ball ++ xs ∧ w ∈ outer b.ball ++ xs ∧ 0 < Spec.area2 u v w ∧
        Spec.EmptyCircle (xs ++ outer b.ball) u v w ∧ q ∈ Spec.triangle2 u v w) ∧
    (∀ t ∈ s.list, ∀ i, ∃ a, (s.heap t).adj i = some a ∧ (a ∈ s.list → ∃ j, (s.heap a).adj j = some t ∧
      (s.heap a).v j = (s.heap t).v (i + 1) ∧ (s.heap a).v (j + 1) = (s.heap t).v i)) ∧
    (s.list ≠ [] → ∃ t ∈ s.list, ∃ i a, (s.heap t).adj i = some a ∧ a ∉ s.list) := by
  obtain rfl := C35_shows_unique d _ _ hx (C35_toAddrList d hd)
  have hr : 0 < b.ball.radius := by
    obtain ⟨x, hxm⟩ := List.exists_mem_of_ne_nil _ hne
    have := hin x hxm
    have q : 0 ≤ Spec.ed2 b.ball.center x := Real.sqrt_nonneg _
    linarith
  have hO := outer_ok hr hin
  obtain ⟨s', e, G⟩ := insert_ok hτ (fuel := fuel) hO hnd hres hf
  have hn : b.num ≠ 0 := fun h0 => by
    have := C39_recursive2D_none τ hτ d b hb h0
    linarith
  have hss : s = purge s' := by
    rw [triangulate, build, hb] at hs
    simp only [if_neg hn] at hs
    rw [e] at hs
    simpa using hs.symm
  subst hss
  have GG := G.good
  have hadj : ∀ t ∈ (purge s').list, ∀ i, ∃ a, (s'.heap t).adj i = some a := by
    intro t ht i
    rw [mem_purge] at ht
    cases hc : (s'.heap t).adj i with
    | some a => exact ⟨a, rfl⟩
    | none =>
      obtain ⟨m, e1, -⟩ := GG.mesh.bdry t ht.1 i hc
      have := ht.2 i
      have := m.isLt
      omega
  refine ⟨?_, ?_, ?_⟩
  · intro a b' c q hout hq
    simp only [outer, List.cons.injEq, and_true] at hout
    obtain ⟨rfl, rfl, rfl⟩ := hout
    have hins := inner_ins (hO.o 0) hq
    have hq' : ∀ m : Fin 3, 0 < o (posOf b.ball d.toAddrList m.val) (posOf b.ball d.toAddrList (m + 1).val) q := by
      intro m; fin_cases m
      · exact hins.1
      · exact hins.2.1
      · exact hins.2.2
    obtain ⟨t, ht, htq⟩ := GG.cover hq'
    have hm := mem_triangle (GG.ori t ht) ((InC_iff _ _).1 htq)
    by_cases h3 : ∀ i, 3 ≤ (s'.heap t).v i
    · left
      exact ⟨_, List.mem_map.2 ⟨t, mem_purge.2 ⟨ht, h3⟩, rfl⟩, hm⟩
    · right
      push Not at h3
      obtain ⟨i, hi⟩ := h3
      have vl := GG.mesh.vlt t ht
      obtain ⟨m, -, m1, m2, m3⟩ := circle_of_del GG ht
      have mm : ∀ j, Spec.sqd2 m (posOf b.ball d.toAddrList ((s'.heap t).v j)) =
          Spec.sqd2 m (posOf b.ball d.toAddrList ((s'.heap t).v 0)) := by
        intro j; fin_cases j
        · rfl
        · exact m1
        · exact m2
      refine ⟨posOf b.ball d.toAddrList ((s'.heap t).v i), posOf b.ball d.toAddrList ((s'.heap t).v (i + 1)),
        posOf b.ball d.toAddrList ((s'.heap t).v (i + 2)), posOf_sp _ _ hi, posOf_lt _ _ (vl _), posOf_lt _ _ (vl _), ?_, ?_, ?_⟩
      · rw [area2_eq, O_rot]; exact GG.ori t ht
      · refine ⟨m, by rw [mm, mm i], by rw [mm, mm i], fun p hp => ?_⟩
        obtain ⟨k, hk, rfl⟩ := posOf_mem b.ball d.toAddrList (p := p) (by
          rcases List.mem_append.1 hp with q | q
          · exact List.mem_append_right _ q
          · exact List.mem_append_left _ q)
        rw [mm i]; exact m3 k hk
      · apply mem_triangle
        · rw [O_rot]; exact GG.ori t ht
        · refine ⟨htq i, ?_, ?_⟩
          · have := htq (i + 1); rw [f11] at this; exact this
          · have := htq (i + 2); rw [f21] at this; exact this
  · intro t ht i
    obtain ⟨a, ha⟩ := hadj t ht i
    exact ⟨a, ha, fun _ => (GG.mesh.adj t (mem_purge.1 ht).1 i a ha).2⟩
  · intro hne'
    obtain ⟨t, ht, i, hti⟩ := GG.mesh.open_set GG.ori (fun t ht => (mem_purge.1 ht).1) hne'
    obtain ⟨a, ha⟩ := hadj t ht i
    exact ⟨t, ht, i, a, ha, hti a ha⟩

/-- The tolerance is no restriction: every list of points is resolved by all small tolerances. -/
theorem C71_margin (ps : List (Vec2 ℝ)) : ∃ δ > 0, ∀ τ, τ ≤ δ → Spec.Resolves2 τ ps := margin ps

/-- The disks the recursion for the bounding disk can deliver. -/
private noncomputable def cands (xs : List (Vec2 ℝ)) : List (Disk2 ℝ) :=
  xs.map (⟨·, 0⟩) ++ (xs ×ˢ xs).map (fun q => Disk2.from2 q.1 q.2) ++
    (xs ×ˢ xs ×ˢ xs).map fun q => Disk2.from3 q.1 q.2.1 q.2.2

private theorem mem_cands {τ : ℝ} {d : Data (Vec2 ℝ)} {b : Ball2} (hb : boundingBall2Recursive τ d = some b)
    (hr : 0 ≤ b.ball.radius) : b.ball ∈ cands d.toAddrList := by
  rw [boundingBall2Recursive, C39_recursive] at hb
  obtain ⟨l, hl, hm, hdir⟩ := welzl_direct _ _ _ (Nat.zero_le _) hb
  have hm : ∀ p ∈ l.reverse, p ∈ d.toAddrList := fun p hp => by simpa using hm p (by simpa using hp)
  have two : ∀ p q, p ∈ d.toAddrList → q ∈ d.toAddrList → Disk2.from2 p q ∈ cands d.toAddrList := by
    intro p q hp hq
    refine List.mem_append_left _ (List.mem_append_right _ (List.mem_map.2 ⟨(p, q), ?_, rfl⟩))
    simp [List.pair_mem_product, hp, hq]
  have t2 : ∀ x y z : Vec2 ℝ, bb2Test2 τ x y z = some b → b.ball = .from2 x y := by
    intro x y z h
    simp only [bb2Test2] at h
    split_ifs at h
    rw [← Option.some.inj h]
  generalize l.reverse = l at hdir hm
  match l, hdir, hm with
  | [], h, _ =>
    obtain rfl := Option.some.inj h
    exact absurd hr (by norm_num)
  | [a], h, hm =>
    obtain rfl := Option.some.inj h
    exact List.mem_append_left _ (List.mem_append_left _ (List.mem_map.2 ⟨a, hm a (by simp), rfl⟩))
  | [a, c], h, hm =>
    obtain rfl := Option.some.inj h
    exact two a c (hm a (by simp)) (hm c (by simp))
  | [a, c, e], h, hm =>
    have ha := hm a (by simp)
    have hc := hm c (by simp)
    have he := hm e (by simp)
    simp only [bb2Direct, bb2Three, Option.orElse_eq_orElse, Option.orElse_eq_or,
      Option.or_eq_some_iff] at h
    rcases h with h | ⟨-, h | ⟨-, h | ⟨-, h⟩⟩⟩
    · rw [t2 _ _ _ h]; exact two _ _ he hc
    · rw [t2 _ _ _ h]; exact two _ _ hc ha
    · rw [t2 _ _ _ h]; exact two _ _ ha he
    · obtain rfl := Option.some.inj h
      refine List.mem_append_right _ (List.mem_map.2 ⟨(e, c, a), ?_, rfl⟩)
      simp [List.pair_mem_product, ha, hc, he]
  | _ :: _ :: _ :: _ :: _, h, _ => simp [bb2Direct] at h

/-- For every list of points there is a threshold below which all tolerances resolve the data and the corners of the enclosing
triangle. -/
theorem C71_resolves (xs : List (Vec2 ℝ)) : ∃ δ > 0, ∀ τ, τ ≤ δ → ∀ d : Data (Vec2 ℝ), d.WF → d.Shows xs →
    ∀ b, boundingBall2Recursive τ d = some b → 0 ≤ b.ball.radius → Spec.Resolves2 τ (outer b.ball ++ xs) := by
  obtain ⟨δ, h, hl⟩ := all_small (fun δ (c : Disk2 ℝ) => ∀ τ, τ ≤ δ → Spec.Resolves2 τ (outer c ++ xs))
    (fun δ δ' c _ hd hp τ hτ => hp τ (hτ.trans hd)) (fun c => margin _) (cands xs)
  refine ⟨δ, h, fun τ hτ d hd hx b hb hr => ?_⟩
  have hc := mem_cands hb hr
  have := C35_shows_unique d _ _ hx (C35_toAddrList d hd)
  rw [← this] at hc
  exact hl _ hc τ hτ

/-- All data: for every list of different points there is a threshold such that for all smaller tolerances, if the disk has
the data within 3/2 of its radius, the triangulation succeeds and is a Delaunay triangulation. -/
theorem C71_small (xs : List (Vec2 ℝ)) (hne : xs ≠ []) (hnd : xs.Nodup) : ∃ δ > 0, ∀ τ, 0 < τ → τ ≤ δ →
    ∀ d : Data (Vec2 ℝ), d.WF → d.Shows xs → ∀ b, boundingBall2Recursive τ d = some b →
    (∀ x ∈ xs, Spec.ed2 b.ball.center x < 3 / 2 * b.ball.radius) → ∀ fuel, 4 * xs.length + 5 ≤ fuel →
    ∃ s, triangulate τ fuel d = some (some s) ∧ Spec.IsDelaunay xs (outer b.ball) (tris (posOf b.ball xs) s) := by
  obtain ⟨δ, h, hl⟩ := C71_resolves xs
  refine ⟨δ, h, fun τ τ0 hτ d hd hx b hb hin fuel hf => ?_⟩
  have hr : 0 < b.ball.radius := by
    obtain ⟨x, hxm⟩ := List.exists_mem_of_ne_nil _ hne
    have := hin x hxm
    have q : 0 ≤ Spec.ed2 b.ball.center x := Real.sqrt_nonneg _
    linarith
  exact C71_delaunay τ τ0 d hd xs hx hne hnd b hb hin (hl τ hτ d hd hx b hb hr.le) fuel hf

/-- A point at a distance of at least the tolerance from the enclosing triangle makes the triangulation fail. -/
theorem C71_refused (τ : ℝ) (hτ : 0 < τ) (d : Data (Vec2 ℝ)) (hd : d.WF) (xs ys : List (Vec2 ℝ)) (p : Vec2 ℝ)
    (hx : d.Shows (xs ++ p :: ys)) (hnd : xs.Nodup) (b : Ball2) (hb : boundingBall2Recursive τ d = some b)
    (hr : 0 < b.ball.radius)
    (hin : ∀ x ∈ xs, Spec.ed2 b.ball.center x < 3 / 2 * b.ball.radius) (hres : Spec.Resolves2 τ (outer b.ball ++ xs))
    (hp : ∀ u v w, outer b.ball = [u, v, w] → ∀ q ∈ Spec.triangle2 u v w, τ ≤ Spec.ed2 p q)
    (fuel : ℕ) (hf : 4 * xs.length + 5 ≤ fuel) : triangulate τ fuel d = some none := by
  have hxs := C35_shows_unique d _ _ hx (C35_toAddrList d hd)
  have agree : ∀ i < 3 + xs.length, posOf b.ball (xs ++ p :: ys) i = posOf b.ball xs i := by
    intro i hi
    have : i < (outer b.ball ++ xs).length := by simp [outer]; omega
    rw [posOf, posOf, ← List.append_assoc, List.getD_append _ _ _ _ this]
  have hO' := outer_ok hr hin
  have hinj := posOf_inj hO' hnd
  have hO : Outer (posOf b.ball (xs ++ p :: ys)) (3 + xs.length) := by
    refine ⟨fun m => ?_, fun i hi h3 m => ?_⟩
    · rw [agree _ (by omega), agree _ (by omega), agree _ (by omega)]; exact hO'.o m
    · rw [agree _ (by omega), agree _ (by omega), agree _ hi]; exact hO'.ins i hi h3 m
  have hn : b.num ≠ 0 := fun h0 => by
    have := C39_recursive2D_none τ hτ d b hb h0
    linarith
  obtain ⟨s, e, G⟩ := insertAll_good (pos := posOf b.ball (xs ++ p :: ys)) hτ (fuel := fuel) xs.length 3 start le_rfl
    (start_good (hO.mono (by omega))) hO
    (by
      intro i hi j hj _ e
      rw [agree i hi, agree j (by omega)] at e
      exact absurd (hinj i hi j (by omega) e) (by omega))
    (by
      intro N hN h3 i hi j hj k hk hA
      rw [agree i (by omega), agree j (by omega), agree k (by omega)] at hA ⊢
      rw [agree N hN]
      exact hres _ (posOf_lt _ xs (by omega)) _ (posOf_lt _ xs (by omega)) _ (posOf_lt _ xs (by omega)) _ (posOf_lt _ xs hN) hA)
    (by omega)
  have pp : posOf b.ball (xs ++ p :: ys) (3 + xs.length) = p := by
    rw [posOf_data _ _ (by simp)]; simp
  rw [triangulate, build, hb]
  simp only [if_neg hn]
  rw [← hxs, List.length_append, List.range_add, List.map_append, insertAll_append, e]
  dsimp only
  rw [List.length_cons, List.range_succ_eq_map, List.map_cons, List.map_cons, insertAll]
  rw [update_miss G]
  · rfl
  · intro t ht q hq
    rw [Nat.add_zero, Nat.add_comm xs.length 3, pp]
    refine hp _ _ _ rfl q ?_
    have hcl := triangle_cl (G.good.ori t ht) hq
    have vl := G.good.mesh.vlt t ht
    have key : ∀ m : Fin 3, 0 ≤ o (posOf b.ball (xs ++ p :: ys) m.val) (posOf b.ball (xs ++ p :: ys) (m + 1).val) q := by
      intro m
      have Ot : 0 < o _ _ _ := G.good.ori t ht
      have e := affine (posOf b.ball (xs ++ p :: ys) ((s.heap t).v 0)) (posOf b.ball (xs ++ p :: ys) ((s.heap t).v 1))
        (posOf b.ball (xs ++ p :: ys) ((s.heap t).v 2)) (posOf b.ball (xs ++ p :: ys) m.val)
        (posOf b.ball (xs ++ p :: ys) (m + 1).val) q
      have a0 := mul_nonneg hcl.2.1 (hO.nonneg (vl 0) m)
      have a1 := mul_nonneg hcl.2.2 (hO.nonneg (vl 1) m)
      have a2 := mul_nonneg hcl.1 (hO.nonneg (vl 2) m)
      by_contra hc
      push Not at hc
      have := mul_neg_of_pos_of_neg Ot hc
      linarith
    exact mem_triangle (hO.o 0) ⟨key 0, key 1, key 2⟩

/-- It happens on valid data: the triangulation of (0, -6), (-4, 2), (-2, -4), (0, 4), (10, 0) fails, for all small
tolerances, because the disk does not contain the last point. -/
theorem C71_fails : ∃ δ > 0, ∀ τ, 0 < τ → τ ≤ δ → ∀ fuel, 21 ≤ fuel →
    triangulate τ fuel (Data.assignList [⟨0, -6⟩, ⟨-4, 2⟩, ⟨-2, -4⟩, ⟨0, 4⟩, ⟨10, 0⟩]) = some none := by
  obtain ⟨δ, h, hl⟩ := margin (outer ⟨⟨0, -1⟩, 5⟩ ++ [⟨0, -6⟩, ⟨-4, 2⟩, ⟨-2, -4⟩, ⟨0, 4⟩])
  refine ⟨min δ (1/100), lt_min h (by norm_num), fun τ τ0 hτ fuel hf => ?_⟩
  obtain ⟨b, hb, hc, hr, -⟩ := C39_recursive2D_wrong τ τ0 (hτ.trans (min_le_right _ _))
  have hball : b.ball = ⟨⟨0, -1⟩, 5⟩ := by
    cases hbb : b.ball; rw [hbb] at hc hr; simp only at hc hr; rw [hc, hr]
  have ed : ∀ (m q : Vec2 ℝ) (r : ℝ), 0 < r → Spec.sqd2 m q < r ^ 2 → Spec.ed2 m q < r :=
    fun m q r hr h => (Real.sqrt_lt' hr).2 h
  refine C71_refused τ τ0 _ (C35_wf [] .zero 0 _).2.2.2 [⟨0, -6⟩, ⟨-4, 2⟩, ⟨-2, -4⟩, ⟨0, 4⟩] [] ⟨10, 0⟩
    (C35_readonly _ [] .zero).2.1 ?_ b hb (by rw [hr]; norm_num) ?_ ?_ ?_ fuel (by simpa using hf)
  · norm_num [Vec2.mk.injEq]
  · intro x hx
    rw [hball]
    simp only [List.mem_cons, List.not_mem_nil, or_false] at hx
    rcases hx with rfl | rfl | rfl | rfl <;> exact ed _ _ _ (by norm_num) (by norm_num [Spec.sqd2])
  · rw [hball]; exact hl τ (hτ.trans (min_le_left _ _))
  · intro u v w hout q hq
    rw [hball] at hout
    simp only [outer, List.cons.injEq, and_true] at hout
    obtain ⟨rfl, rfl, rfl⟩ := hout
    have s0 : 0 < Real.sqrt 3 := by positivity
    have s1 : Real.sqrt 3 < 1.74 := (Real.sqrt_lt' (by norm_num)).2 (by norm_num)
    have ss : Real.sqrt 3 ^ 2 = 3 := Real.sq_sqrt (by norm_num)
    have hA : 0 < o (⟨0, -1 + 3 * 5⟩ : Vec2 ℝ) ⟨0 - 3 / 2 * Real.sqrt 3 * 5, -1 - 3 / 2 * 5⟩
        ⟨0 + 3 / 2 * Real.sqrt 3 * 5, -1 - 3 / 2 * 5⟩ := by
      simp only [o]; nlinarith
    have hc := (triangle_cl hA hq).2.2
    have e : o (⟨0 + 3 / 2 * Real.sqrt 3 * 5, -1 - 3 / 2 * 5⟩ : Vec2 ℝ) ⟨0, -1 + 3 * 5⟩ ⟨10, 0⟩ = 105 * Real.sqrt 3 - 225 := by
      simp only [o]; ring
    have hneg : o (⟨0 + 3 / 2 * Real.sqrt 3 * 5, -1 - 3 / 2 * 5⟩ : Vec2 ℝ) ⟨0, -1 + 3 * 5⟩ ⟨10, 0⟩ < 0 := by
      rw [e]; linarith
    refine le_trans ?_ (far_side hneg hc)
    have hed : Spec.ed2 (⟨0 + 3 / 2 * Real.sqrt 3 * 5, -1 - 3 / 2 * 5⟩ : Vec2 ℝ) ⟨0, -1 + 3 * 5⟩ ≤ 26 := by
      rw [Spec.ed2, Real.sqrt_le_left (by norm_num)]
      simp only [Spec.sqd2]; nlinarith
    have hed0 : 0 < Spec.ed2 (⟨0 + 3 / 2 * Real.sqrt 3 * 5, -1 - 3 / 2 * 5⟩ : Vec2 ℝ) ⟨0, -1 + 3 * 5⟩ := by
      rw [Spec.ed2, Real.sqrt_pos]
      simp only [Spec.sqd2]; nlinarith
    rw [le_div_iff₀ hed0, e]
    have := hτ.trans (min_le_right _ _)
    nlinarith

/-- The hypotheses are met: four points are triangulated by two triangles. -/
example : ∃ δ > 0, ∀ τ, 0 < τ → τ ≤ δ → ∃ b s,
    triangulate τ 21 (Data.assignList [⟨0, 5⟩, ⟨0, -5⟩, ⟨-10, 0⟩, ⟨10, 0⟩]) = some (some s) ∧
    (((⟨0, 5⟩, ⟨-10, 0⟩, ⟨0, -5⟩) ∈ tris (posOf b [⟨0, 5⟩, ⟨0, -5⟩, ⟨-10, 0⟩, ⟨10, 0⟩]) s) ∨
     ((⟨-10, 0⟩, ⟨0, -5⟩, ⟨0, 5⟩) ∈ tris (posOf b [⟨0, 5⟩, ⟨0, -5⟩, ⟨-10, 0⟩, ⟨10, 0⟩]) s) ∨
     ((⟨0, -5⟩, ⟨0, 5⟩, ⟨-10, 0⟩) ∈ tris (posOf b [⟨0, 5⟩, ⟨0, -5⟩, ⟨-10, 0⟩, ⟨10, 0⟩]) s)) := by
  obtain ⟨δ, h, hl⟩ := C71_small [⟨0, 5⟩, ⟨0, -5⟩, ⟨-10, 0⟩, ⟨10, 0⟩] (by simp) (by norm_num [Vec2.mk.injEq])
  refine ⟨min δ (1/100), lt_min h (by norm_num), fun τ τ0 hτ => ?_⟩
  obtain ⟨b, hb, -, hc, hr⟩ := BallEval.kite4 τ0 (hτ.trans (min_le_right _ _))
  have hr : b.ball.radius = 10 := by
    rw [hr, show (100 : ℝ) = 10 ^ 2 by norm_num]; exact Real.sqrt_sq (by norm_num)
  have ss : Real.sqrt 3 ^ 2 = 3 := Real.sq_sqrt (by norm_num)
  have s0 : 0 < Real.sqrt 3 := by positivity
  have hball : b.ball = ⟨⟨0, 0⟩, 10⟩ := by
    cases hbb : b.ball; rw [hbb] at hc hr; simp only at hc hr; rw [hc, hr]
  obtain ⟨s, e, D⟩ := hl τ τ0 (hτ.trans (min_le_left _ _)) _ (C35_wf [] .zero 0 _).2.2.2 (C35_readonly _ [] .zero).2.1 b hb
    (by
      intro x hx
      rw [hball]
      simp only [List.mem_cons, List.not_mem_nil, or_false] at hx
      rcases hx with rfl | rfl | rfl | rfl <;> exact (Real.sqrt_lt' (by norm_num)).2 (by norm_num [Spec.sqd2])) 21 (by simp)
  refine ⟨b.ball, s, e, D.complete _ (by simp) _ (by simp) _ (by simp) (by norm_num [Spec.area2]) ?_⟩
  refine ⟨⟨-15/4, 0⟩, by norm_num [Spec.sqd2], by norm_num [Spec.sqd2], fun p hp => ?_⟩
  rw [hball] at hp
  simp only [outer, List.cons_append, List.nil_append, List.mem_cons, List.not_mem_nil, or_false] at hp
  rcases hp with rfl | rfl | rfl | rfl | rfl | rfl | rfl
  · simp
  · simp
  · simp
  · right; right; right; norm_num [Spec.sqd2]
  · right; right; right; norm_num [Spec.sqd2]
  · right; right; right; simp only [Spec.sqd2]; nlinarith
  · right; right; right; simp only [Spec.sqd2]; nlinarith

/-- The triangles need not fill the convex hull of the data, because the enclosing triangle is not far enough away: the
triangulation of the three corners (-10, 0), (10, 0), (0, 1) of a triangle is empty, for all small tolerances. -/
theorem C71_hull_wrong : ∃ δ > 0, ∀ τ, 0 < τ → τ ≤ δ → ∃ s,
    triangulate τ 17 (Data.assignList [⟨-10, 0⟩, ⟨10, 0⟩, ⟨0, 1⟩]) = some (some s) ∧ s.list = [] := by
  obtain ⟨δ, h, hl⟩ := C71_small [⟨-10, 0⟩, ⟨10, 0⟩, ⟨0, 1⟩] (by simp) (by norm_num [Vec2.mk.injEq])
  refine ⟨min δ (1/100), lt_min h (by norm_num), fun τ τ0 hτ => ?_⟩
  obtain ⟨b, hb, -, hc, hr⟩ := BallEval.flat3 τ0 (hτ.trans (min_le_right _ _))
  have hr : b.ball.radius = 10 := by
    rw [hr, show (100 : ℝ) = 10 ^ 2 by norm_num]; exact Real.sqrt_sq (by norm_num)
  have ss : Real.sqrt 3 ^ 2 = 3 := Real.sq_sqrt (by norm_num)
  have s0 : 0 < Real.sqrt 3 := by positivity
  have hball : b.ball = ⟨⟨0, 0⟩, 10⟩ := by
    cases hbb : b.ball; rw [hbb] at hc hr; simp only at hc hr; rw [hc, hr]
  obtain ⟨s, e, D⟩ := hl τ τ0 (hτ.trans (min_le_left _ _)) _ (C35_wf [] .zero 0 _).2.2.2 (C35_readonly _ [] .zero).2.1 b hb
    (by
      intro x hx
      rw [hball]
      simp only [List.mem_cons, List.not_mem_nil, or_false] at hx
      rcases hx with rfl | rfl | rfl <;> exact (Real.sqrt_lt' (by norm_num)).2 (by norm_num [Spec.sqd2])) 17 (by simp)
  refine ⟨s, e, ?_⟩
  by_contra hne
  obtain ⟨t, ht⟩ := List.exists_mem_of_ne_nil _ hne
  have hT : (posOf b.ball [⟨-10, 0⟩, ⟨10, 0⟩, ⟨0, 1⟩] ((s.heap t).v 0), posOf b.ball [⟨-10, 0⟩, ⟨10, 0⟩, ⟨0, 1⟩] ((s.heap t).v 1),
      posOf b.ball [⟨-10, 0⟩, ⟨10, 0⟩, ⟨0, 1⟩] ((s.heap t).v 2)) ∈ tris (posOf b.ball [⟨-10, 0⟩, ⟨10, 0⟩, ⟨0, 1⟩]) s :=
    List.mem_map.2 ⟨t, ht, rfl⟩
  obtain ⟨c0, c1, c2⟩ := D.corners _ hT
  have hA := D.ccw _ hT
  obtain ⟨m, m1, m2, m3⟩ := D.empty _ hT
  have m4 := m3 ⟨0 - 3 / 2 * Real.sqrt 3 * 10, 0 - 3 / 2 * 10⟩
    (List.mem_append_right _ (by rw [hball]; exact List.mem_cons_of_mem _ List.mem_cons_self))
  dsimp only at c0 c1 c2 hA m1 m2 m4
  generalize posOf b.ball [⟨-10, 0⟩, ⟨10, 0⟩, ⟨0, 1⟩] ((s.heap t).v 0) = p at *
  generalize posOf b.ball [⟨-10, 0⟩, ⟨10, 0⟩, ⟨0, 1⟩] ((s.heap t).v 1) = q at *
  generalize posOf b.ball [⟨-10, 0⟩, ⟨10, 0⟩, ⟨0, 1⟩] ((s.heap t).v 2) = r at *
  simp only [List.mem_cons, List.not_mem_nil, or_false] at c0 c1 c2
  have key : m.x = 0 → m.y = -99/2 → Spec.sqd2 m p = 10201/4 → False := by
    intro hx hy hp
    rw [hp] at m4
    simp only [Spec.sqd2, hx, hy] at m4
    nlinarith
  simp only [Spec.area2] at hA
  simp only [Spec.sqd2] at m1 m2 key
  rcases c0 with rfl | rfl | rfl <;> rcases c1 with rfl | rfl | rfl <;> rcases c2 with rfl | rfl | rfl <;>
    first
    | (exfalso; revert hA; norm_num; done)
    | (have hx : m.x = 0 := by nlinarith
       have hy : m.y = -99/2 := by nlinarith
       exact key hx hy (by rw [hx, hy]; norm_num))

/-- Without data the list is not initialised. -/
theorem C71_empty (τ : ℝ) (d : Data (Vec2 ℝ)) (hd : d.WF) (hx : d.Shows []) (fuel : ℕ) : triangulate τ fuel d = none := by
  have hxs := C35_shows_unique d _ _ hx (C35_toAddrList d hd)
  rw [triangulate, build, boundingBall2Recursive, ← hxs]
  rfl

/-- With a single point the enclosing triangle has no area and the distance from it is not a number. -/
theorem C71_single (τ : ℝ) (hτ : 0 < τ) (h1 : τ ≤ 1) (d : Data (Vec2 ℝ)) (hd : d.WF) (p : Vec2 ℝ) (hx : d.Shows [p]) (fuel : ℕ) :
    triangulate τ fuel d = none := by
  have hxs := C35_shows_unique d _ _ hx (C35_toAddrList d hd)
  have hb : boundingBall2Recursive τ d = some ⟨⟨p, 0⟩, 1, [p]⟩ := by
    rw [boundingBall2Recursive, ← hxs]
    have : ¬ (⟨.zero, -1⟩ : Disk2 ℝ).pointIsInside p τ := by
      rw [(C22_disk _ p τ).2, not_lt]
      have : 0 ≤ Spec.ed2 .zero p := Real.sqrt_nonneg _
      dsimp only
      linarith
    simp [BBall.recursive, bb2Direct, this]
  have hz : ∀ i < 4, posOf ⟨p, 0⟩ [p] i = p := by
    intro i hi
    have : i = 0 ∨ i = 1 ∨ i = 2 ∨ i = 3 := by omega
    rcases this with rfl | rfl | rfl | rfl <;> simp [posOf, outer]
  rw [triangulate, build, hb]
  dsimp only
  rw [if_neg (by norm_num), ← hxs]
  have e : Tri2.closest p p p p = none := by
    simp [Tri2.closest, Tri2.closestFromOrigin, zeo]
  have f : listFind τ (posOf ⟨p, 0⟩ [p]) start.heap (posOf ⟨p, 0⟩ [p] 3) start.list = none := by
    show listFind τ (posOf ⟨p, 0⟩ [p]) start.heap (posOf ⟨p, 0⟩ [p] 3) [0] = none
    unfold listFind
    have v0 : (start.heap 0).v 0 = 0 := rfl
    have v1 : (start.heap 0).v 1 = 1 := rfl
    have v2 : (start.heap 0).v 2 = 2 := rfl
    rw [v0, v1, v2, hz 0 (by norm_num), hz 1 (by norm_num), hz 2 (by norm_num), hz 3 (by norm_num), e]
  have g : insertAll τ (posOf ⟨p, 0⟩ [p]) fuel [3] start = none := by
    simp [insertAll, update, f]
  have : ((List.range [p].length).map (· + 3)) = [3] := rfl
  rw [this, g]
  rfl

end Zeo

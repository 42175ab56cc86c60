import Verif.Lemmas.VorRun
import Verif.Props.C71

/-!
# C72: Voronoi diagram in the plane

`voronoi` is `zVec2DDataVoronoiDiagram`: `none` when something undefined is done or a value is not a number (or the number of
rounds allowed is exceeded), `some none` when false is returned.
-/

namespace Zeo
open Del DelG

/-- The cells with their seeds and nodes as points. -/
noncomputable def Del.diagram (pos : ℕ → Vec2 ℝ) (vl : List VCell) : List (Vec2 ℝ × List (Vec2 ℝ)) :=
  vl.map fun c => (pos c.seed, c.loop.map LoopCell.node)

private theorem seed_lt {n : ℕ} {c : VCell} {vl : List VCell} (hs : vl.map VCell.seed = (List.range n).map (· + 3)) (hc : c ∈ vl) :
    3 ≤ c.seed ∧ c.seed < 3 + n := by
  have := List.mem_map_of_mem (f := VCell.seed) hc
  rw [hs, List.mem_map] at this
  obtain ⟨k, hk, e⟩ := this
  rw [List.mem_range] at hk
  omega

/-- If the bounding disk has the data within 3/2 of its radius, the points are different and the tolerance resolves them, true
is returned, and the list is the Voronoi diagram of the data in the presence of the three corners of the enclosing triangle:
there is one cell for each point, in the order of the data; the polygon of its nodes spans the set of the points of the plane
which no datum and no corner is nearer to than the seed; each edge of the closed polygon is on the bisector of the seed and
another point; and the polygon is convex and goes round clockwise. -/
theorem C72_voronoi (τ : ℝ) (hτ : 0 < τ) (d : Data (Vec2 ℝ)) (hd : d.WF) (xs : List (Vec2 ℝ)) (hx : d.Shows xs)
    (hne : xs ≠ []) (hnd : xs.Nodup) (b : Ball2) (hb : boundingBall2Recursive τ d = some b)
    (hin : ∀ x ∈ xs, Spec.ed2 b.ball.center x < 3 / 2 * b.ball.radius) (hres : Spec.Resolves2 τ (outer b.ball ++ xs))
    (fuel : ℕ) (hf : 4 * xs.length + 5 ≤ fuel) :
    ∃ vl, voronoi τ fuel d = some (some vl) ∧
      Spec.IsVoronoi xs (outer b.ball) (diagram (posOf b.ball xs) vl) := by
  obtain rfl := C35_shows_unique d _ _ hx (C35_toAddrList d hd)
  generalize hxs : d.toAddrList = xs at *
  have hr : 0 < b.ball.radius := by
    obtain ⟨x, hxm⟩ := List.exists_mem_of_ne_nil _ hne
    have := hin x hxm
    have q : 0 ≤ Spec.ed2 b.ball.center x := Real.sqrt_nonneg _
    linarith
  have hO := outer_ok hr hin
  obtain ⟨s, e, GS⟩ := insert_ok hτ (fuel := fuel) hO hnd hres hf
  have G := GS.good
  have hn : b.num ≠ 0 := fun h0 => by
    have := C39_recursive2D_none τ hτ d b hb h0
    linarith
  have inj := posOf_inj hO hnd
  have inj' : ∀ p < 3 + xs.length, ∀ i < 3 + xs.length, posOf b.ball xs i = posOf b.ball xs p → i = p :=
    fun p hp i hi => inj i hi p hp
  have hbd : build τ fuel d = some (b.ball, some s) := by
    rw [build, hb]
    simp only [if_neg hn, hxs]
    rw [e]
    rfl
  have hsn : ((((List.range xs.length).map (· + 3)).map fun p => (⟨p, []⟩ : VCell)).map VCell.seed) =
      (List.range xs.length).map (· + 3) := by
    rw [List.map_map]; exact List.map_id _
  have hnd3 : ((List.range xs.length).map (· + 3)).Nodup := List.Nodup.map (fun a c h => Nat.add_right_cancel h) List.nodup_range
  have h1 := addTris_eq (pos := posOf b.ball xs) (h := s.heap) s.list
    (((List.range xs.length).map (· + 3)).map fun p => (⟨p, []⟩ : VCell)) G.ori (by rw [hsn]; exact hnd3)
  obtain ⟨vl, k1, k2, k3⟩ := closeAll_ok (fuel := fuel) (P := Closed (posOf b.ball xs) s.heap s.list)
    (upd (fun p => s.list.flatMap (nodesOf (posOf b.ball xs) s.heap p))
      (((List.range xs.length).map (· + 3)).map fun p => (⟨p, []⟩ : VCell))) (by
      intro c hc
      have hb' := seed_lt (n := xs.length) (by rw [upd_seed, hsn]) hc
      have hl : c.loop = star (posOf b.ball xs) s.heap s.list c.seed := by
        unfold upd at hc
        rw [List.map_map, List.mem_map] at hc
        obtain ⟨q, -, rfl⟩ := hc
        rfl
      rw [hl]
      exact G.closed hO hb'.1 hb'.2 (inj' _ hb'.2) (by have := GS.len; omega))
  rw [upd_seed, hsn] at k2
  refine ⟨vl, ?_, ?_⟩
  · rw [voronoi, hbd]
    simp only [hxs]
    rw [h1, Option.bind_some, k1]
    rfl
  -- nodes
  have hmem : ∀ c ∈ vl, {m | m ∈ c.loop.map LoopCell.node} =
      {m | ∃ t ∈ s.list, At s.heap c.seed t ∧ m = nod (posOf b.ball xs) s.heap t} := by
    intro c hc
    have cl := k3 c hc
    ext m
    simp only [Set.mem_setOf_eq, List.mem_map]
    constructor
    · rintro ⟨x, hx, rfl⟩
      obtain ⟨q1, q2, i, q3, -⟩ := mem_star.1 (cl.perm.mem_iff.1 hx)
      exact ⟨_, q1, ⟨i, q3⟩, q2⟩
    · rintro ⟨t, ht, hat, rfl⟩
      obtain ⟨x, hx, ex⟩ := G.mesh.star_at (pos := posOf b.ball xs) (seed_lt k2 hc).1 ht hat
      exact ⟨x, cl.perm.mem_iff.2 hx, by rw [(mem_star.1 hx).2.1, ex]⟩
  have hcell : ∀ c ∈ vl, ∀ x, Spec.InHull2 {m | m ∈ c.loop.map LoopCell.node} x ↔
      x ∈ Spec.voronoiCell (xs ++ outer b.ball) (posOf b.ball xs c.seed) := by
    intro c hc x
    have hb' := seed_lt k2 hc
    rw [hmem c hc, G.cell hO hb'.1 hb'.2 (inj' _ hb'.2)]
    constructor
    · intro h q hq
      obtain ⟨i, hi, rfl⟩ := posOf_mem b.ball xs (p := q) (by simp only [List.mem_append] at hq ⊢; tauto)
      exact h i hi
    · intro h k hk
      have := posOf_lt b.ball xs hk
      exact h _ (by simp only [List.mem_append] at this ⊢; tauto)
  have hedge : ∀ c ∈ vl, ∀ e ∈ Spec.loopEdges (c.loop.map LoopCell.node), ∃ q < 3 + xs.length, q ≠ c.seed ∧
      Spec.sqd2 e.1 (posOf b.ball xs q) = Spec.sqd2 e.1 (posOf b.ball xs c.seed) ∧
      Spec.sqd2 e.2 (posOf b.ball xs q) = Spec.sqd2 e.2 (posOf b.ball xs c.seed) ∧
      ∀ x, Spec.sqd2 x (posOf b.ball xs c.seed) ≤ Spec.sqd2 x (posOf b.ball xs q) → Spec.area2 e.1 e.2 x ≤ 0 := by
    intro c hc e he
    obtain ⟨x, hx, y, hy, exy, rfl⟩ := (k3 c hc).step e he
    obtain ⟨q1, q2, i, q3, q4⟩ := mem_star.1 hx
    obtain ⟨r1, r2, -⟩ := mem_star.1 hy
    have := G.edge q1 q3 q4
    rw [← q2, exy, ← r2] at this
    exact this
  refine ⟨?_, ?_, ?_, ?_⟩
  · rw [diagram, List.map_map]
    have : (Prod.fst ∘ fun c : VCell => (posOf b.ball xs c.seed, c.loop.map LoopCell.node)) = posOf b.ball xs ∘ VCell.seed := rfl
    rw [this, ← List.map_map, k2, List.map_map]
    apply List.ext_getElem
    · simp
    · intro k h1 h2
      simp only [List.getElem_map, List.getElem_range, Function.comp]
      rw [Nat.add_comm, posOf_data _ _ h2]
  · intro c hc x
    obtain ⟨c, hc', rfl⟩ := List.mem_map.1 hc
    exact hcell c hc' x
  · intro c hc e he
    obtain ⟨c, hc', rfl⟩ := List.mem_map.1 hc
    clear hc
    have hc := hc'
    obtain ⟨q, hq, q1, q2, q3, -⟩ := hedge c hc e he
    refine ⟨posOf b.ball xs q, ?_, fun h => q1 (inj q hq _ (seed_lt k2 hc).2 h), q2, q3⟩
    have := posOf_lt b.ball xs hq
    simp only [List.mem_append] at this ⊢
    tauto
  · intro c hc e he m hm
    obtain ⟨c, hc', rfl⟩ := List.mem_map.1 hc
    clear hc
    have hc := hc'
    obtain ⟨q, hq, -, -, -, q4⟩ := hedge c hc e he
    apply q4
    have hm' : m ∈ {m | m ∈ c.loop.map LoopCell.node} := hm
    rw [hmem c hc] at hm'
    obtain ⟨t, ht, ⟨i, hi⟩, rfl⟩ := hm'
    rw [← hi]
    exact G.nod_le ht i hq

/-- All data: for every list of different points there is a threshold such that for all smaller tolerances, if the disk has
the data within 3/2 of its radius, the diagram is computed and is the Voronoi diagram. -/
theorem C72_small (xs : List (Vec2 ℝ)) (hne : xs ≠ []) (hnd : xs.Nodup) : ∃ δ > 0, ∀ τ, 0 < τ → τ ≤ δ →
    ∀ d : Data (Vec2 ℝ), d.WF → d.Shows xs → ∀ b, boundingBall2Recursive τ d = some b →
    (∀ x ∈ xs, Spec.ed2 b.ball.center x < 3 / 2 * b.ball.radius) → ∀ fuel, 4 * xs.length + 5 ≤ fuel →
    ∃ vl, voronoi τ fuel d = some (some vl) ∧
      Spec.IsVoronoi xs (outer b.ball) (diagram (posOf b.ball xs) vl) := by
  obtain ⟨δ, h, hl⟩ := C71_resolves xs
  refine ⟨δ, h, fun τ τ0 hτ d hd hx b hb hin fuel hf => ?_⟩
  have hr : 0 < b.ball.radius := by
    obtain ⟨x, hxm⟩ := List.exists_mem_of_ne_nil _ hne
    have := hin x hxm
    have q : 0 ≤ Spec.ed2 b.ball.center x := Real.sqrt_nonneg _
    linarith
  exact C72_voronoi τ τ0 d hd xs hx hne hnd b hb hin (hl τ hτ d hd hx b hb hr.le) fuel hf

/-- Near the data the three corners make no difference: where twice the distance from the center of the bounding disk and the
distance of the farthest datum from it make up no more than three times the radius, in particular in the whole disk if it has
the data in it, the cells are those of the Voronoi diagram of the data alone. -/
theorem C72_near (xs : List (Vec2 ℝ)) (b : Disk2 ℝ) (hr : 0 ≤ b.radius) (ρ : ℝ) (hρ : ∀ p ∈ xs, Spec.ed2 b.center p ≤ ρ)
    (cs : List (Vec2 ℝ × List (Vec2 ℝ))) (hV : Spec.IsVoronoi xs (outer b) cs) (x : Vec2 ℝ)
    (hx : 2 * Spec.ed2 b.center x + ρ ≤ 3 * b.radius) :
    ∀ c ∈ cs, Spec.InHull2 {m | m ∈ c.2} x ↔ ∀ q ∈ xs, Spec.ed2 x c.1 ≤ Spec.ed2 x q := by
  intro c hc
  have hcx : c.1 ∈ xs := by rw [← hV.seeds]; exact List.mem_map_of_mem hc
  have iff : ∀ q, Spec.sqd2 x c.1 ≤ Spec.sqd2 x q ↔ Spec.ed2 x c.1 ≤ Spec.ed2 x q := by
    intro q
    rw [Spec.ed2, Spec.ed2, Real.sqrt_le_sqrt_iff (by simp only [Spec.sqd2]; positivity)]
  rw [hV.cell c hc]
  constructor
  · intro h q hq
    exact (iff q).1 (h q (List.mem_append_left _ hq))
  · intro h q hq
    rw [iff]
    rcases List.mem_append.1 hq with hq | hq
    · exact h q hq
    · have tri : ∀ u v w : Vec2 ℝ, Spec.ed2 u w ≤ Spec.ed2 u v + Spec.ed2 v w := by
        intro u v w
        have nn : ∀ u v : Vec2 ℝ, 0 ≤ Spec.sqd2 u v := fun u v => by simp only [Spec.sqd2]; positivity
        have hc : (u.x - v.x) * (v.x - w.x) + (u.y - v.y) * (v.y - w.y) ≤ Spec.ed2 u v * Spec.ed2 v w := by
          rw [Spec.ed2, Spec.ed2, ← Real.sqrt_mul (nn _ _)]
          apply Real.le_sqrt_of_sq_le
          simp only [Spec.sqd2]
          nlinarith [sq_nonneg ((u.x - v.x) * (v.y - w.y) - (u.y - v.y) * (v.x - w.x))]
        have s1 : Spec.ed2 u v ^ 2 = Spec.sqd2 u v := Real.sq_sqrt (nn _ _)
        have s2 : Spec.ed2 v w ^ 2 = Spec.sqd2 v w := Real.sq_sqrt (nn _ _)
        have p1 : 0 ≤ Spec.ed2 u v := Real.sqrt_nonneg _
        have p2 : 0 ≤ Spec.ed2 v w := Real.sqrt_nonneg _
        rw [Spec.ed2, Real.sqrt_le_left (by linarith)]
        rw [show (Spec.ed2 u v + Spec.ed2 v w) ^ 2 = Spec.ed2 u v ^ 2 + Spec.ed2 v w ^ 2 + 2 * (Spec.ed2 u v * Spec.ed2 v w) by ring,
          s1, s2]
        simp only [Spec.sqd2]
        linarith
      have sym : ∀ u v : Vec2 ℝ, Spec.ed2 u v = Spec.ed2 v u := by
        intro u v; rw [Spec.ed2, Spec.ed2]; congr 1; simp only [Spec.sqd2]; ring
      have hq3 : Spec.ed2 b.center q = 3 * b.radius := by
        have ss : Real.sqrt 3 ^ 2 = 3 := Real.sq_sqrt (by norm_num)
        rw [Spec.ed2, show 3 * b.radius = Real.sqrt ((3 * b.radius) ^ 2) from (Real.sqrt_sq (by positivity)).symm]
        congr 1
        simp only [outer, List.mem_cons, List.not_mem_nil, or_false] at hq
        rcases hq with rfl | rfl | rfl <;> simp only [Spec.sqd2]
        · ring
        · linear_combination 9 / 4 * b.radius ^ 2 * ss
        · linear_combination 9 / 4 * b.radius ^ 2 * ss
      have t1 := tri x b.center c.1
      have t2 := tri b.center x q
      have := hρ _ hcx
      rw [sym x b.center] at t1
      linarith

/-- But the cells do not cover the plane, as those of a Voronoi diagram do: the corners of the enclosing triangle are in none of
them. All cells are bounded, those of the outmost data are cut off. -/
theorem C72_uncovered (xs : List (Vec2 ℝ)) (b : Disk2 ℝ) (hin : ∀ x ∈ xs, Spec.ed2 b.center x < 3 / 2 * b.radius)
    (cs : List (Vec2 ℝ × List (Vec2 ℝ))) (hV : Spec.IsVoronoi xs (outer b) cs) :
    ∀ x ∈ outer b, ∀ c ∈ cs, ¬ Spec.InHull2 {m | m ∈ c.2} x := by
  intro x hx c hc
  rw [hV.cell c hc]
  intro h
  have hcx : c.1 ∈ xs := by rw [← hV.seeds]; exact List.mem_map_of_mem hc
  have h0 := h x (List.mem_append_right _ hx)
  have : x = c.1 := by
    have e0 : Spec.sqd2 x x = 0 := by simp [Spec.sqd2]
    rw [e0] at h0
    simp only [Spec.sqd2] at h0
    exact eq_of_sq h0
  have h1 := hin _ hcx
  rw [← this] at h1
  have hr : 0 < b.radius := by
    have q : 0 ≤ Spec.ed2 b.center x := Real.sqrt_nonneg _
    linarith
  rw [Spec.ed2, Real.sqrt_lt' (by positivity)] at h1
  have ss : Real.sqrt 3 ^ 2 = 3 := Real.sq_sqrt (by norm_num)
  simp only [outer, List.mem_cons, List.not_mem_nil, or_false] at hx
  rcases hx with rfl | rfl | rfl <;> simp only [Spec.sqd2] at h1 <;> nlinarith [mul_pos hr hr]

/-- The outcomes of the triangulation carry over: false is returned if and only if the triangulation returns false, and what is
undefined there is so here. -/
theorem C72_false (τ : ℝ) (fuel : ℕ) (d : Data (Vec2 ℝ)) :
    (voronoi τ fuel d = some none ↔ triangulate τ fuel d = some none) ∧
    (triangulate τ fuel d = none → voronoi τ fuel d = none) := by
  rw [voronoi, triangulate]
  rcases build τ fuel d with _ | ⟨b, _ | s⟩
  · simp
  · simp
  · refine ⟨⟨fun h => ?_, fun h => ?_⟩, fun h => ?_⟩
    · obtain ⟨a, -, ha⟩ := Option.map_eq_some_iff.1 h
      exact absurd ha (by simp)
    · simp at h
    · simp at h

/-- So the diagram fails for the five points of `C71_fails`, for all small tolerances. -/
theorem C72_fails : ∃ δ > 0, ∀ τ, 0 < τ → τ ≤ δ → ∀ fuel, 21 ≤ fuel →
    voronoi τ fuel (Data.assignList [⟨0, -6⟩, ⟨-4, 2⟩, ⟨-2, -4⟩, ⟨0, 4⟩, ⟨10, 0⟩]) = some none := by
  obtain ⟨δ, h, hl⟩ := C71_fails
  exact ⟨δ, h, fun τ τ0 hτ fuel hf => (C72_false τ fuel _).1.2 (hl τ τ0 hτ fuel hf)⟩

/-- No data. -/
theorem C72_empty (τ : ℝ) (d : Data (Vec2 ℝ)) (hd : d.WF) (hx : d.Shows []) (fuel : ℕ) : voronoi τ fuel d = none :=
  (C72_false τ fuel d).2 (C71_empty τ d hd hx fuel)

/-- The hypotheses are met by four points: the cell of (0, 5) has the point (1, 1) in it and has not (-1, -1). -/
example : ∃ δ > 0, ∀ τ, 0 < τ → τ ≤ δ → ∃ vl b,
    voronoi τ 21 (Data.assignList [⟨0, 5⟩, ⟨0, -5⟩, ⟨-10, 0⟩, ⟨10, 0⟩]) = some (some vl) ∧
    ∃ c ∈ diagram (posOf b [⟨0, 5⟩, ⟨0, -5⟩, ⟨-10, 0⟩, ⟨10, 0⟩]) vl, c.1 = ⟨0, 5⟩ ∧
    Spec.InHull2 {m | m ∈ c.2} ⟨1, 1⟩ ∧ ¬ Spec.InHull2 {m | m ∈ c.2} ⟨-1, -1⟩ := by
  obtain ⟨δ, h, hl⟩ := C72_small [⟨0, 5⟩, ⟨0, -5⟩, ⟨-10, 0⟩, ⟨10, 0⟩] (by simp) (by norm_num [Vec2.mk.injEq])
  refine ⟨min δ (1/100), lt_min h (by norm_num), fun τ τ0 hτ => ?_⟩
  obtain ⟨b, hb, -, hc, hr⟩ := BallEval.kite4 τ0 (hτ.trans (min_le_right _ _))
  have hr : b.ball.radius = 10 := by
    rw [hr, show (100 : ℝ) = 10 ^ 2 by norm_num]; exact Real.sqrt_sq (by norm_num)
  have hball : b.ball = ⟨⟨0, 0⟩, 10⟩ := by
    cases hbb : b.ball; rw [hbb] at hc hr; simp only at hc hr; rw [hc, hr]
  obtain ⟨vl, e, D⟩ := hl τ τ0 (hτ.trans (min_le_left _ _)) _ (C35_wf [] .zero 0 _).2.2.2 (C35_readonly _ [] .zero).2.1 b hb
    (by
      intro x hx
      rw [hball]
      simp only [List.mem_cons, List.not_mem_nil, or_false] at hx
      rcases hx with rfl | rfl | rfl | rfl <;> exact (Real.sqrt_lt' (by norm_num)).2 (by norm_num [Spec.sqd2])) 21 (by simp)
  refine ⟨vl, b.ball, e, ?_⟩
  have h5 : (⟨0, 5⟩ : Vec2 ℝ) ∈ (diagram (posOf b.ball [⟨0, 5⟩, ⟨0, -5⟩, ⟨-10, 0⟩, ⟨10, 0⟩]) vl).map Prod.fst := by
    rw [D.seeds]; simp
  obtain ⟨c, hc, e5⟩ := List.mem_map.1 h5
  have hρ : ∀ p ∈ ([⟨0, 5⟩, ⟨0, -5⟩, ⟨-10, 0⟩, ⟨10, 0⟩] : List (Vec2 ℝ)), Spec.ed2 b.ball.center p ≤ 10 := by
    intro p hp
    rw [hball]
    simp only [List.mem_cons, List.not_mem_nil, or_false] at hp
    rcases hp with rfl | rfl | rfl | rfl <;> exact (Real.sqrt_le_left (by norm_num)).2 (by norm_num [Spec.sqd2])
  have near : ∀ x : Vec2 ℝ, Spec.sqd2 ⟨0, 0⟩ x ≤ 100 → 2 * Spec.ed2 b.ball.center x + 10 ≤ 3 * b.ball.radius := by
    intro x hx
    rw [hball]
    have : Spec.ed2 ⟨0, 0⟩ x ≤ 10 := (Real.sqrt_le_left (by norm_num)).2 (by norm_num; exact hx)
    dsimp only
    linarith
  refine ⟨c, hc, e5, ?_, ?_⟩
  · rw [C72_near _ _ (by rw [hr]; norm_num) 10 hρ _ D ⟨1, 1⟩ (near _ (by norm_num [Spec.sqd2])) c hc, e5]
    intro q hq
    apply Real.sqrt_le_sqrt
    simp only [List.mem_cons, List.not_mem_nil, or_false] at hq
    rcases hq with rfl | rfl | rfl | rfl <;> norm_num [Spec.sqd2]
  · rw [C72_near _ _ (by rw [hr]; norm_num) 10 hρ _ D ⟨-1, -1⟩ (near _ (by norm_num [Spec.sqd2])) c hc, e5]
    intro h
    have := h ⟨0, -5⟩ (by simp)
    rw [Spec.ed2, Spec.ed2, Real.sqrt_le_sqrt_iff (by simp only [Spec.sqd2]; positivity)] at this
    norm_num [Spec.sqd2] at this

end Zeo

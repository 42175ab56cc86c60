import Verif.Model.ColPH
import Verif.Spec.ColPH
import Verif.Lemmas.Polar
import Verif.Props.C35
import Verif.Props.C51

/-! # C75: intersection of convex polyhedra by the dual transformation -/

namespace Zeo
open Spec IPH Polar QHGeom

/-! ## Arrays -/

private theorem fill_run (x : Tri3 ℝ → Bool × Vec3 ℝ) (c : Vec3 ℝ) : ∀ (ts : List (Tri3 ℝ)), (∀ t ∈ ts, (x t).1 = true) →
    ∀ (cells : List (Vec3 ℝ)) n i, i + ts.length ≤ cells.length → fill x ts c (.arr false cells n i) =
      some (Data.run (.arr false cells n i) ((ts.map fun t => (x t).2.add c).map .add)) := by
  intro ts
  induction ts with
  | nil => intro _ cells n i _; rfl
  | cons t ts ih =>
    intro hx cells n i hl
    rw [List.length_cons] at hl
    have h1 : Data.add ((x t).2.add c) (.arr false cells n i) = (true, .arr false (cells.set i ((x t).2.add c)) (i + 1) (i + 1)) := by
      rw [Data.add, if_neg (by omega)]
    have h2 := ih (fun t ht => hx t (List.mem_cons_of_mem _ ht)) (cells.set i ((x t).2.add c)) (i + 1) (i + 1)
      (by rw [List.length_set]; omega)
    unfold fill at h2 ⊢
    rw [List.foldlM_cons, hx t List.mem_cons_self, h1]
    simp only [Bool.and_self, if_true, Option.bind_eq_bind, Option.bind_some]
    rw [h2]
    simp only [List.map_cons, Data.run, List.foldl_cons, Data.step, h1]

private theorem fill_ok (x : Tri3 ℝ → Bool × Vec3 ℝ) (c : Vec3 ℝ) (ts : List (Tri3 ℝ)) (hx : ∀ t ∈ ts, (x t).1 = true) {n : ℕ}
    (hn : n = ts.length) :
    ∃ d, fill x ts c (Data.initArray .zero n) = some d ∧ d.toAddrList = ts.map fun t => (x t).2.add c := by
  refine ⟨_, fill_run x c ts hx _ _ _ (by simp [hn]), ?_⟩
  have h1 := C35_array_fill (Vec3.zero : Vec3 ℝ) n (ts.map fun t => (x t).2.add c)
  rw [List.take_of_length_le (by simp [hn])] at h1
  have h2 := C35_toAddrList _ (C35_wf ((ts.map fun t => (x t).2.add c).map .add) (Vec3.zero : Vec3 ℝ) n []).2.1
  exact C35_shows_unique _ _ _ h2 h1

/-! ## The transformation -/

private theorem minOffset_pos : 0 < minOffset := by norm_num [minOffset]

private theorem clamp_pos {d : ℝ} (h : 0 ≤ d) : clamp d = max minOffset d := by
  unfold clamp
  rw [if_neg (by intro hc; linarith [hc.1])]
  split_ifs with h1
  · rw [max_eq_left h1.2.le]
  · rw [max_eq_right]
    by_contra h2
    exact h1 ⟨h, not_le.1 h2⟩

private theorem div_true {v old : Vec3 ℝ} {k : ℝ} (hk : k ≠ 0) : v.div k old = (true, v.mul (1 / k)) := by
  unfold Vec3.div; rw [if_neg hk]

private theorem add_zero' (v : Vec3 ℝ) : v.add .zero = v := by ext <;> simp [Vec3.add, Vec3.zero]

private theorem inner_height (ph : PH ℝ) (f : Face ℝ) (p : Vec3 ℝ) :
    f.norm.inner ((ph.vert f.i0).sub p) = -height ⟨ph.vert f.i0, f.norm⟩ p := by
  simp only [Vec3.inner, Vec3.sub, height]; ring

variable {τ : ℝ} {sort : (Vec3 ℝ → Vec3 ℝ → ℤ) → List (Vec3 ℝ) → List (Vec3 ℝ)} {ph1 ph2 : PH ℝ} {p old : Vec3 ℝ}

private theorem resolves_mono {l l' : List (Vec3 ℝ)} (h : Resolves τ l) (hl : ∀ v ∈ l', v ∈ l) : Resolves τ l' where
  small := h.small
  same a ha b hb := h.same a (hl a ha) b (hl b hb)
  big a ha b hb c hc := h.big a (hl a ha) b (hl b hb) c (hl c hc)
  bend a ha b hb c hc := h.bend a (hl a ha) b (hl b hb) c (hl c hc)
  off a ha b hb c hc d hd := h.off a (hl a ha) b (hl b hb) c (hl c hc) d (hl d hd)
  fold a ha b hb c hc d hd := h.fold a (hl a ha) b (hl b hb) c (hl c hc) d (hl d hd)
  on a ha b hb c hc d hd := h.on a (hl a ha) b (hl b hb) c (hl c hc) d (hl d hd)

private theorem mem_polar (hp : ∀ f ∈ ph1.face, height ⟨ph1.vert f.i0, f.norm⟩ p < 0)
    (hp' : ∀ f ∈ ph2.face, height ⟨ph2.vert f.i0, f.norm⟩ p < 0) (x : Vec3 ℝ) :
    x.sub p ∈ polar (dualPoints minOffset p ph1 ++ dualPoints minOffset p ph2) ↔
      x ∈ behindFrom minOffset p ph1 ∩ behindFrom minOffset p ph2 := by
  have one : ∀ ph : PH ℝ, (∀ y ∈ dualPoints minOffset p ph, dot y (x.sub p) ≤ 1) ↔ x ∈ behindFrom minOffset p ph := by
    intro ph
    unfold dualPoints
    simp only [List.forall_mem_map]
    refine forall₂_congr fun f _ => ?_
    have hk : 0 < max minOffset (-height ⟨ph.vert f.i0, f.norm⟩ p) := lt_max_of_lt_left minOffset_pos
    rw [dot_comm, dot_mul, one_div, inv_mul_le_iff₀ hk, mul_one, dot_comm]
  unfold polar
  simp only [List.mem_append, Set.mem_setOf_eq, or_imp, forall_and]
  rw [one, one]
  rfl

/-- The dual part of `zIntersectPH3D`, for a base point behind all faces of both polyhedra: the result is a closed,
outward oriented mesh, and the points behind its faces are the points behind all faces of the two, after those that
are nearer to the base point than `ZEO_TRI3D_DUALXFORM_MIN_OFFSET` have been moved away to that distance. These points
must not reach further from the base point than the inverse of that distance. -/
theorem C75_dual (hτ : 0 ≤ τ) (hp : ∀ f ∈ ph1.face, height ⟨ph1.vert f.i0, f.norm⟩ p < 0)
    (hp' : ∀ f ∈ ph2.face, height ⟨ph2.vert f.i0, f.norm⟩ p < 0)
    (hb : ∀ x ∈ behindFrom (1 / 100000) p ph1 ∩ behindFrom (1 / 100000) p ph2, ed x p ≤ 100000)
    (hD : Resolves τ (dualPoints (1 / 100000) p ph1 ++ dualPoints (1 / 100000) p ph2))
    (hE : Resolves τ (meetPoints p (dualPoints (1 / 100000) p ph1 ++ dualPoints (1 / 100000) p ph2))) :
    ∃ ph, dual τ sort ph1 ph2 p old = some ph ∧
      behind ph = behindFrom (1 / 100000) p ph1 ∩ behindFrom (1 / 100000) p ph2 ∧
      (∀ x, InHull {v | ∃ i < ph.nv, v = ph.vert i} x ↔ x ∈ behind ph) ∧
      Valid ph ∧ (meshEdges (faceIdx ph)).Nodup ∧ Closed (faceIdx ph) ∧ UnitNormals ph ∧
      ∀ f ∈ ph.face, f.norm = unitNormal (ph.vert f.i0) (ph.vert f.i1) (ph.vert f.i2) := by
  change ∀ x ∈ behindFrom minOffset p ph1 ∩ behindFrom minOffset p ph2, ed x p ≤ 100000 at hb
  change Resolves τ (dualPoints minOffset p ph1 ++ dualPoints minOffset p ph2) at hD
  change Resolves τ (meetPoints p (dualPoints minOffset p ph1 ++ dualPoints minOffset p ph2)) at hE
  change ∃ ph, _ ∧ behind ph = behindFrom minOffset p ph1 ∩ behindFrom minOffset p ph2 ∧ _
  have hmp := mem_polar hp hp'
  set D := dualPoints minOffset p ph1 ++ dualPoints minOffset p ph2 with hDdef
  -- the dual points
  have tr : ∀ ph : PH ℝ, (∀ f ∈ ph.face, height ⟨ph.vert f.i0, f.norm⟩ p < 0) → ∀ f ∈ ph.face, dualXformA (ph.tri f) p old =
      (true, f.norm.mul (1 / max minOffset (-height ⟨ph.vert f.i0, f.norm⟩ p))) := by
    intro ph h f hf
    have h1 : clamp ((ph.tri f).norm.inner ((ph.tri f).v0.sub p)) = max minOffset (-height ⟨ph.vert f.i0, f.norm⟩ p) := by
      show clamp (f.norm.inner ((ph.vert f.i0).sub p)) = _
      rw [inner_height]
      exact clamp_pos (by have := h f hf; linarith)
    have h2 : max minOffset (-height ⟨ph.vert f.i0, f.norm⟩ p) ≠ 0 := (lt_max_of_lt_left minOffset_pos).ne'
    unfold dualXformA dualXform
    rw [h1, div_true h2]
    rfl
  obtain ⟨d, hd1, hd2⟩ := fill_ok (fun t => dualXformA t p old) .zero (ph1.face.map ph1.tri ++ ph2.face.map ph2.tri) (by
    intro t ht
    rcases List.mem_append.1 ht with ht | ht <;> obtain ⟨f, hf, rfl⟩ := List.mem_map.1 ht
    · rw [tr ph1 hp f hf]
    · rw [tr ph2 hp' f hf]) (n := ph1.face.length + ph2.face.length) (by simp)
  have hdD : d.toAddrList = D := by
    rw [hd2, hDdef, List.map_append, List.map_map, List.map_map]
    unfold dualPoints
    congr 1
    · refine List.map_congr_left fun f hf => ?_
      simp only [Function.comp]
      rw [tr ph1 hp f hf, add_zero']
    · refine List.map_congr_left fun f hf => ?_
      simp only [Function.comp]
      rw [tr ph2 hp' f hf, add_zero']
  -- their hull
  have hR : ∀ x ∈ polar D, dot x x ≤ (100000 : ℝ) ^ 2 := by
    intro x hx
    have e : (x.add p).sub p = x := by ext <;> simp [Vec3.add, Vec3.sub]
    have h1 := hb (x.add p) ((hmp _).1 (by rw [e]; exact hx))
    unfold ed at h1
    rw [Real.sqrt_le_left (by norm_num)] at h1
    simp only [sqd, Vec3.add, add_sub_cancel_right] at h1
    unfold dot
    nlinarith
  have hnc : ¬ Coplanar {q | q ∈ d.toAddrList} := by rw [hdD]; exact not_coplanar hR
  have hrD : Resolves τ d.toAddrList := by rw [hdD]; exact hD
  obtain ⟨ch, hch⟩ := C69_some hτ (sort := sort) hrD hnc
  obtain ⟨m1, m2, -, -, -, -⟩ := C69_mesh hτ hrD hnc hch
  obtain ⟨n1, n2⟩ := C69_faces hτ hrD hnc hch
  set F : List (Vec3 ℝ × Vec3 ℝ) := ch.face.map fun f => (f.norm, ch.vert f.i0) with hF
  have hv : ∀ g ∈ F, g.2 ∈ D := by
    intro g hg
    obtain ⟨f, hf, rfl⟩ := List.mem_map.1 hg
    rw [← hdD]
    exact m2 _ (m1 f hf).1
  have hu : ∀ g ∈ F, dot g.1 g.1 = 1 := by
    intro g hg
    obtain ⟨f, hf, rfl⟩ := List.mem_map.1 hg
    have := n1 f hf
    unfold dot; dsimp only; nlinarith
  have hh : ∀ q, InHull {y | y ∈ D} q ↔ ∀ g ∈ F, dot g.1 (q.sub g.2) ≤ 0 := by
    intro q
    have := (C69_hull hτ hrD hnc hch q).2
    rw [hdD] at this
    rw [this, hF]
    simp only [List.forall_mem_map]
    refine forall₂_congr fun f _ => ?_
    have : height ⟨ch.vert f.i0, f.norm⟩ q = dot f.norm (q.sub (ch.vert f.i0)) := by
      simp only [height, dot, Vec3.sub]; ring
    rw [this]
  have hoff : ∀ f ∈ ch.face, minOffset ≤ dot f.norm (ch.vert f.i0) := by
    intro f hf
    have := offset hR hv hu hh (by norm_num) (g := (f.norm, ch.vert f.i0)) (List.mem_map.2 ⟨f, hf, rfl⟩)
    exact le_trans (le_of_eq (by norm_num [minOffset])) this
  have trB : ∀ f ∈ ch.face, dualXformB (ch.tri f) old = (true, f.norm.mul (1 / dot f.norm (ch.vert f.i0))) := by
    intro f hf
    have h1 := hoff f hf
    have h0 : 0 < dot f.norm (ch.vert f.i0) := minOffset_pos.trans_le h1
    have h2 : clamp ((ch.tri f).norm.inner (ch.tri f).v0) = dot f.norm (ch.vert f.i0) := by
      show clamp (dot f.norm (ch.vert f.i0)) = _
      rw [clamp_pos h0.le, max_eq_right h1]
    unfold dualXformB dualXform
    rw [h2, div_true h0.ne']
    rfl
  obtain ⟨e, he1, he2⟩ := fill_ok (fun t => dualXformB t old) p (ch.face.map ch.tri) (by
    intro t ht
    obtain ⟨f, hf, rfl⟩ := List.mem_map.1 ht
    rw [trB f hf]) (n := ch.face.length) (by simp)
  have heE : e.toAddrList = ch.face.map fun f => (f.norm.mul (1 / dot f.norm (ch.vert f.i0))).add p := by
    rw [he2, List.map_map]
    refine List.map_congr_left fun f hf => ?_
    simp only [Function.comp]
    rw [trB f hf]
  have hrE : Resolves τ e.toAddrList := by
    refine resolves_mono hE fun v hv' => ?_
    rw [heE] at hv'
    obtain ⟨f, hf, rfl⟩ := List.mem_map.1 hv'
    have hm : ∀ i < ch.nv, ch.vert i ∈ D := fun i hi => by rw [← hdD]; exact m2 i hi
    unfold meetPoints
    refine List.mem_flatMap.2 ⟨_, hm _ (m1 f hf).1, List.mem_flatMap.2 ⟨_, hm _ (m1 f hf).2.1,
      List.mem_map.2 ⟨_, hm _ (m1 f hf).2.2, ?_⟩⟩⟩
    rw [(n2 f hf).1]
  -- the hull of the points that correspond to the faces
  have hshift : ∀ x, InHull {v | v ∈ e.toAddrList} x ↔ x.sub p ∈ polar D := by
    intro x
    rw [← polar_hull hR hv hu hh (by norm_num), heE, hF]
    constructor
    · rintro ⟨n, L, q, h1, h2, h3, rfl⟩
      refine ⟨n, L, fun i => (q i).sub p, fun i => ?_, h2, h3, ?_⟩
      · obtain ⟨f, hf, e1⟩ := List.mem_map.1 (h1 i)
        refine ⟨_, List.mem_map.2 ⟨f, hf, rfl⟩, ?_⟩
        dsimp only
        rw [← e1]
        ext <;> simp [Vec3.add, Vec3.sub]
      · ext <;> simp only [Vec3.sub, mul_sub, Finset.sum_sub_distrib, ← Finset.sum_mul, h3, one_mul]
    · rintro ⟨n, L, q, h1, h2, h3, h4⟩
      refine ⟨n, L, fun i => (q i).add p, fun i => ?_, h2, h3, ?_⟩
      · obtain ⟨g, hg, e1⟩ := h1 i
        obtain ⟨f, hf, rfl⟩ := List.mem_map.1 hg
        refine List.mem_map.2 ⟨f, hf, ?_⟩
        exact (congrArg (·.add p) e1).symm
      · have hx := congrArg Vec3.x h4
        have hy := congrArg Vec3.y h4
        have hz := congrArg Vec3.z h4
        simp only [Vec3.sub] at hx hy hz
        ext <;> simp only [Vec3.add, mul_add, Finset.sum_add_distrib, ← Finset.sum_mul, h3, one_mul] <;> linarith
  have hncE : ¬ Coplanar {q | q ∈ e.toAddrList} := by
    rintro ⟨n, hn, c, hc⟩
    obtain ⟨ε, hε, h1, h2⟩ := polar_near D n
    have hs : ∀ q : Vec3 ℝ, (q.add p).sub p = q := fun q => by ext <;> simp [Vec3.add, Vec3.sub]
    have k1 := (hshift ((n.mul ε).add p)).2 (by rw [hs]; exact h1)
    have k2 := (hshift ((n.mul (-ε)).add p)).2 (by rw [hs]; exact h2)
    have j1 := dot_hull_le (w := n) (k := c) (fun v hv => (hc v hv).le) k1
    have hneg : ∀ v, dot (n.mul (-1)) v = -dot n v := fun v => by rw [dot_comm, dot_mul, dot_comm]; ring
    have j2 := dot_hull_le (w := n.mul (-1)) (k := -c) (fun v hv => by rw [hneg, hc v hv]) k2
    rw [hneg, dot_add, dot_mul] at j2
    rw [dot_add, dot_mul] at j1
    have := dot_self_pos hn
    nlinarith
  obtain ⟨ph, hph⟩ := C69_some hτ (sort := sort) hrE hncE
  obtain ⟨a1, -, -, -, a5, a6⟩ := C69_mesh hτ hrE hncE hph
  obtain ⟨b1, b2⟩ := C69_faces hτ hrE hncE hph
  have hbeh : behind ph = behindFrom minOffset p ph1 ∩ behindFrom minOffset p ph2 := by
    ext x
    rw [← hmp, ← hshift]
    exact (C69_hull hτ hrE hncE hph x).2.symm
  refine ⟨ph, ?_, hbeh, fun x => ?_, a1, a5, a6, b1, fun f hf => (b2 f hf).1⟩
  · unfold dual
    rw [hd1, Option.bind_some, hch, Option.bind_some, he1, Option.bind_some, hph]
  · exact (C69_hull hτ hrE hncE hph x).1.trans (C69_hull hτ hrE hncE hph x).2

/-! ## The base point -/

private theorem dist_height {ph : PH ℝ} (hf : FlatFaces ph) {f : Face ℝ} (h : f ∈ ph.face) (p : Vec3 ℝ) :
    (ph.tri f).distFromPointToPlane p = height ⟨ph.vert f.i0, f.norm⟩ p := by
  obtain ⟨h1, h2⟩ := hf f h
  simp only [height, Vec3.sub, Vec3.inner] at h1 h2 ⊢
  simp only [PH.tri, Tri3.distFromPointToPlane, Vec3.inner, Vec3.sub]
  linear_combination (-1/3) * h1 + (-1/3) * h2

private theorem outside_none {ph : PH ℝ} (hf : FlatFaces ph) (p : Vec3 ℝ) :
    outside τ ph p = none ↔ ∀ f ∈ ph.face, height ⟨ph.vert f.i0, f.norm⟩ p < -τ := by
  unfold outside
  rw [Option.map_eq_none_iff, List.find?_eq_none]
  refine forall₂_congr fun f h => ?_
  rw [decide_eq_true_eq, ge_iff_le, not_le, dist_height hf h]

/-- **The base point** found by the loop is behind all the faces of the two polyhedra, by more than the tolerance. -/
theorem C75_base (hf1 : FlatFaces ph1) (hf2 : FlatFaces ph2) (n : ℕ) (q : Vec3 ℝ) (h : basePoint τ ph1 ph2 n q = some p) :
    (∀ f ∈ ph1.face, height ⟨ph1.vert f.i0, f.norm⟩ p < -τ) ∧ ∀ f ∈ ph2.face, height ⟨ph2.vert f.i0, f.norm⟩ p < -τ := by
  induction n generalizing q with
  | zero =>
    unfold basePoint at h
    split at h
    · rename_i h1 h2
      obtain rfl := Option.some.inj h
      exact ⟨(outside_none hf1 _).1 h1, (outside_none hf2 _).1 h2⟩
    · cases h
  | succ n ih =>
    unfold basePoint at h
    split at h
    · rename_i h1 h2
      obtain rfl := Option.some.inj h
      exact ⟨(outside_none hf1 _).1 h1, (outside_none hf2 _).1 h2⟩
    · exact ih _ h

/-- A midpoint that is behind all faces by more than the tolerance is the base point. -/
theorem C75_base_inside (hf1 : FlatFaces ph1) (hf2 : FlatFaces ph2) (n : ℕ)
    (h1 : ∀ f ∈ ph1.face, height ⟨ph1.vert f.i0, f.norm⟩ p < -τ) (h2 : ∀ f ∈ ph2.face, height ⟨ph2.vert f.i0, f.norm⟩ p < -τ) :
    basePoint τ ph1 ph2 n p = some p := by
  cases n <;> (unfold basePoint; rw [(outside_none hf1 p).2 h1, (outside_none hf2 p).2 h2])

/-! ## The function -/

variable {maxIter : ℕ} {depth : List (Vec3 ℝ) → List (Vec3 ℝ) → Option (Vec3 ℝ × Vec3 ℝ)}

/-- **No intersection is reported** when `zGJKDepth` reports none or one less deep than
`ZEO_INTERSECT_PH3D_THRESHOLD`. -/
theorem C75_shallow (h : ∀ c ∈ depth ph1.vertArray ph2.vertArray, ed c.1 c.2 < 1 / 10000) :
    intersectPH τ sort maxIter depth ph1 ph2 old = none := by
  unfold intersectPH
  cases hd : depth ph1.vertArray ph2.vertArray with
  | none => rfl
  | some c =>
    rw [Option.bind_some, if_pos]
    have := h c hd
    have e : c.1.dist c.2 = ed c.1 c.2 := by
      simp only [Vec3.dist, Vec3.sqrDist, Vec3.sqrNorm, Vec3.inner, Vec3.sub, ed, sqd]
      congr 1; ring
    rw [e]
    exact this

/-- **Polyhedra that do not overlap have no intersection**, whatever `zGJKDepth` returns: if no point is behind all
faces by more than the tolerance, the result is NULL. -/
theorem C75_disjoint (hf1 : FlatFaces ph1) (hf2 : FlatFaces ph2)
    (h : ∀ x, (∃ f ∈ ph1.face, -τ ≤ height ⟨ph1.vert f.i0, f.norm⟩ x) ∨ ∃ f ∈ ph2.face, -τ ≤ height ⟨ph2.vert f.i0, f.norm⟩ x) :
    intersectPH τ sort maxIter depth ph1 ph2 old = none := by
  unfold intersectPH
  cases hd : depth ph1.vertArray ph2.vertArray with
  | none => rfl
  | some c =>
    rw [Option.bind_some]
    split_ifs with hc
    · rfl
    · cases hb : basePoint τ ph1 ph2 maxIter (c.1.mid c.2) with
      | none => rfl
      | some p =>
        exfalso
        obtain ⟨h1, h2⟩ := C75_base hf1 hf2 _ _ hb
        rcases h p with ⟨f, hf, k⟩ | ⟨f, hf, k⟩
        · exact absurd (h1 f hf) (not_lt.2 k)
        · exact absurd (h2 f hf) (not_lt.2 k)

private theorem intersect_dual {c : Vec3 ℝ × Vec3 ℝ} (hd : depth ph1.vertArray ph2.vertArray = some c)
    (hc : 1 / 10000 ≤ ed c.1 c.2) (hb : basePoint τ ph1 ph2 maxIter (c.1.mid c.2) = some p) :
    intersectPH τ sort maxIter depth ph1 ph2 old = dual τ sort ph1 ph2 p old := by
  unfold intersectPH
  have e : c.1.dist c.2 = ed c.1 c.2 := by
    simp only [Vec3.dist, Vec3.sqrDist, Vec3.sqrNorm, Vec3.inner, Vec3.sub, ed, sqd]
    congr 1; ring
  rw [hd, Option.bind_some, if_neg (by rw [e]; exact not_lt.2 hc), hb, Option.bind_some]

private theorem behind_from (ph : PH ℝ) (x : Vec3 ℝ) : x ∈ behind ph →  x ∈ behindFrom (1 / 100000) p ph := by
  intro hx f hf
  refine le_max_of_le_right ?_
  have := hx f hf
  have e : dot f.norm (x.sub p) = height ⟨ph.vert f.i0, f.norm⟩ x - height ⟨ph.vert f.i0, f.norm⟩ p := by
    simp only [dot, height, Vec3.sub]; ring
  linarith

private theorem from_behind {ph : PH ℝ} (h : ∀ f ∈ ph.face, height ⟨ph.vert f.i0, f.norm⟩ p ≤ -(1 / 100000)) :
    behindFrom (1 / 100000) p ph = behind ph := by
  ext x
  refine ⟨fun hx f hf => ?_, behind_from ph x⟩
  have h1 := hx f hf
  have h2 := h f hf
  rw [max_eq_right (by linarith)] at h1
  have e : dot f.norm (x.sub p) = height ⟨ph.vert f.i0, f.norm⟩ x - height ⟨ph.vert f.i0, f.norm⟩ p := by
    simp only [dot, height, Vec3.sub]; ring
  linarith

private theorem from_near {ph : PH ℝ} (g : ∀ f ∈ ph.face, height ⟨ph.vert f.i0, f.norm⟩ p < 0) {x : Vec3 ℝ}
    (hx : x ∈ behindFrom (1 / 100000) p ph) : ∀ f ∈ ph.face, height ⟨ph.vert f.i0, f.norm⟩ x ≤ 1 / 100000 := by
  intro f hf
  have h1 := hx f hf
  have h2 := g f hf
  have e : dot f.norm (x.sub p) = height ⟨ph.vert f.i0, f.norm⟩ x - height ⟨ph.vert f.i0, f.norm⟩ p := by
    simp only [dot, height, Vec3.sub]; ring
  rw [e] at h1
  rcases max_cases (1 / 100000) (-height ⟨ph.vert f.i0, f.norm⟩ p) with ⟨m, -⟩ | ⟨m, -⟩ <;> rw [m] at h1 <;> linarith

/-- **The intersection.** Let `zGJKDepth` report a depth of at least the threshold, and let the loop find a base point
`p` that is behind all faces by at least `ZEO_TRI3D_DUALXFORM_MIN_OFFSET`. If the tolerance resolves the dual points
and the points where the planes meet, the result is a closed, outward oriented polyhedron; the points behind its faces
are exactly the points behind all faces of both, and they are the convex hull of its vertices. -/
theorem C75_intersect_partial (hτ : 0 ≤ τ) {c : Vec3 ℝ × Vec3 ℝ} (hd : depth ph1.vertArray ph2.vertArray = some c)
    (hc : 1 / 10000 ≤ ed c.1 c.2) (hb : basePoint τ ph1 ph2 maxIter (c.1.mid c.2) = some p)
    (h1 : ∀ f ∈ ph1.face, height ⟨ph1.vert f.i0, f.norm⟩ p ≤ -(1 / 100000))
    (h2 : ∀ f ∈ ph2.face, height ⟨ph2.vert f.i0, f.norm⟩ p ≤ -(1 / 100000))
    (hfar : ∀ x ∈ behind ph1 ∩ behind ph2, ed x p ≤ 100000)
    (hD : Resolves τ (dualPoints (1 / 100000) p ph1 ++ dualPoints (1 / 100000) p ph2))
    (hE : Resolves τ (meetPoints p (dualPoints (1 / 100000) p ph1 ++ dualPoints (1 / 100000) p ph2))) :
    ∃ ph, intersectPH τ sort maxIter depth ph1 ph2 old = some ph ∧ behind ph = behind ph1 ∩ behind ph2 ∧
      (∀ x, InHull {v | ∃ i < ph.nv, v = ph.vert i} x ↔ x ∈ behind ph1 ∩ behind ph2) ∧
      Valid ph ∧ (meshEdges (faceIdx ph)).Nodup ∧ Closed (faceIdx ph) ∧ UnitNormals ph ∧
      ∀ f ∈ ph.face, f.norm = unitNormal (ph.vert f.i0) (ph.vert f.i1) (ph.vert f.i2) := by
  have e1 := from_behind h1
  have e2 := from_behind h2
  obtain ⟨ph, k1, k2, k3, k4⟩ := C75_dual (sort := sort) (old := old) hτ (fun f hf => by have := h1 f hf; linarith)
    (fun f hf => by have := h2 f hf; linarith) (by rw [e1, e2]; exact hfar) hD hE
  rw [e1, e2] at k2
  exact ⟨ph, by rw [intersect_dual hd hc hb, k1], k2, fun x => by rw [k3, k2], k4⟩

/-- **All small tolerances.** If the midpoint of the two points of `zGJKDepth` is behind all faces by at least
`ZEO_TRI3D_DUALXFORM_MIN_OFFSET`, there is a positive number such that for all tolerances up to it the result is the
intersection. -/
theorem C75_small_partial (hf1 : FlatFaces ph1) (hf2 : FlatFaces ph2) {c : Vec3 ℝ × Vec3 ℝ}
    (hd : depth ph1.vertArray ph2.vertArray = some c) (hc : 1 / 10000 ≤ ed c.1 c.2)
    (h1 : ∀ f ∈ ph1.face, height ⟨ph1.vert f.i0, f.norm⟩ (c.1.mid c.2) ≤ -(1 / 100000))
    (h2 : ∀ f ∈ ph2.face, height ⟨ph2.vert f.i0, f.norm⟩ (c.1.mid c.2) ≤ -(1 / 100000))
    (hfar : ∀ x ∈ behind ph1 ∩ behind ph2, ed x (c.1.mid c.2) ≤ 100000) :
    ∃ τ₀ > 0, ∀ τ, 0 ≤ τ → τ ≤ τ₀ → ∃ ph, intersectPH τ sort maxIter depth ph1 ph2 old = some ph ∧
      behind ph = behind ph1 ∩ behind ph2 ∧
      (∀ x, InHull {v | ∃ i < ph.nv, v = ph.vert i} x ↔ x ∈ behind ph1 ∩ behind ph2) ∧
      Valid ph ∧ (meshEdges (faceIdx ph)).Nodup ∧ Closed (faceIdx ph) ∧ UnitNormals ph ∧
      ∀ f ∈ ph.face, f.norm = unitNormal (ph.vert f.i0) (ph.vert f.i1) (ph.vert f.i2) := by
  set p := c.1.mid c.2 with hp
  obtain ⟨t1, ht1, k1⟩ := C69_margin (dualPoints (1 / 100000) p ph1 ++ dualPoints (1 / 100000) p ph2)
  obtain ⟨t2, ht2, k2⟩ := C69_margin (meetPoints p (dualPoints (1 / 100000) p ph1 ++ dualPoints (1 / 100000) p ph2))
  refine ⟨min (min t1 t2) (1 / 1000000), by positivity, fun τ h0 hτ => ?_⟩
  have a1 : τ ≤ t1 := hτ.trans ((min_le_left _ _).trans (min_le_left _ _))
  have a2 : τ ≤ t2 := hτ.trans ((min_le_left _ _).trans (min_le_right _ _))
  have a3 : τ ≤ 1 / 1000000 := hτ.trans (min_le_right _ _)
  refine C75_intersect_partial h0 hd hc (C75_base_inside hf1 hf2 _ (fun f hf => ?_) fun f hf => ?_) h1 h2 hfar
    (k1 τ h0 a1) (k2 τ h0 a2)
  · have := h1 f hf; linarith
  · have := h2 f hf; linarith

/-- **Nothing is cut off**: with a base point nearer to a face the result still contains the intersection. It is within
`ZEO_TRI3D_DUALXFORM_MIN_OFFSET` of each face. -/
theorem C75_contains (hτ : 0 ≤ τ) (hf1 : FlatFaces ph1) (hf2 : FlatFaces ph2) {c : Vec3 ℝ × Vec3 ℝ}
    (hd : depth ph1.vertArray ph2.vertArray = some c) (hc : 1 / 10000 ≤ ed c.1 c.2)
    (hb : basePoint τ ph1 ph2 maxIter (c.1.mid c.2) = some p)
    (hfar : ∀ x ∈ behindFrom (1 / 100000) p ph1 ∩ behindFrom (1 / 100000) p ph2, ed x p ≤ 100000)
    (hD : Resolves τ (dualPoints (1 / 100000) p ph1 ++ dualPoints (1 / 100000) p ph2))
    (hE : Resolves τ (meetPoints p (dualPoints (1 / 100000) p ph1 ++ dualPoints (1 / 100000) p ph2))) :
    ∃ ph, intersectPH τ sort maxIter depth ph1 ph2 old = some ph ∧ behind ph1 ∩ behind ph2 ⊆ behind ph ∧
      (∀ x, InHull {v | ∃ i < ph.nv, v = ph.vert i} x ↔ x ∈ behind ph) ∧
      ∀ x ∈ behind ph, (∀ f ∈ ph1.face, height ⟨ph1.vert f.i0, f.norm⟩ x ≤ 1 / 100000) ∧
        ∀ f ∈ ph2.face, height ⟨ph2.vert f.i0, f.norm⟩ x ≤ 1 / 100000 := by
  obtain ⟨g1, g2⟩ := C75_base hf1 hf2 _ _ hb
  have g1' : ∀ f ∈ ph1.face, height ⟨ph1.vert f.i0, f.norm⟩ p < 0 := fun f hf => by have := g1 f hf; linarith
  have g2' : ∀ f ∈ ph2.face, height ⟨ph2.vert f.i0, f.norm⟩ p < 0 := fun f hf => by have := g2 f hf; linarith
  obtain ⟨ph, k1, k2, k3, -⟩ := C75_dual (sort := sort) (old := old) hτ g1' g2' hfar hD hE
  refine ⟨ph, by rw [intersect_dual hd hc hb, k1], fun x hx => ?_, k3, fun x hx => ?_⟩
  · rw [k2]; exact ⟨behind_from ph1 x hx.1, behind_from ph2 x hx.2⟩
  · rw [k2] at hx
    exact ⟨from_near g1' hx.1, from_near g2' hx.2⟩

/-! ## A tetrahedron -/

/-- The tetrahedron `x ≥ a`, `y ≥ 0`, `z ≥ 0`, `x + y + z ≤ a + 1`. -/
noncomputable def cornerPH (a : ℝ) : PH ℝ where
  nv := 4
  vert i := match i with
    | 0 => ⟨a, 0, 0⟩
    | 1 => ⟨a + 1, 0, 0⟩
    | 2 => ⟨a, 1, 0⟩
    | _ => ⟨a, 0, 1⟩
  face := [⟨0, 3, 2, ⟨-1, 0, 0⟩⟩, ⟨0, 1, 3, ⟨0, -1, 0⟩⟩, ⟨0, 2, 1, ⟨0, 0, -1⟩⟩, ⟨1, 2, 3, ⟨1 / √3, 1 / √3, 1 / √3⟩⟩]

private theorem corner_flat (a : ℝ) : FlatFaces (cornerPH a) := by
  intro f hf
  simp only [cornerPH, List.mem_cons, List.not_mem_nil, or_false] at hf
  rcases hf with rfl | rfl | rfl | rfl <;> constructor <;> simp [height, cornerPH, Vec3.inner, Vec3.sub] <;> ring

private theorem s3 : 0 < 1 / √3 := by positivity
private theorem s3' : 1 / 2 ≤ 1 / √3 := by
  rw [div_le_div_iff₀ (by norm_num) (by positivity)]
  have : √3 ≤ 2 := Real.sqrt_le_iff.2 ⟨by norm_num, by norm_num⟩
  linarith

private theorem corner_height (a : ℝ) (P : ℝ → Prop) (x : Vec3 ℝ) :
    (∀ f ∈ (cornerPH a).face, P (height ⟨(cornerPH a).vert f.i0, f.norm⟩ x)) ↔
      P (a - x.x) ∧ P (-x.y) ∧ P (-x.z) ∧ P ((x.x + x.y + x.z - (a + 1)) * (1 / √3)) := by
  have e1 : height ⟨⟨a, 0, 0⟩, ⟨-1, 0, 0⟩⟩ x = a - x.x := by simp only [height]; ring
  have e2 : height ⟨⟨a, 0, 0⟩, ⟨0, -1, 0⟩⟩ x = -x.y := by simp only [height]; ring
  have e3 : height ⟨⟨a, 0, 0⟩, ⟨0, 0, -1⟩⟩ x = -x.z := by simp only [height]; ring
  have e4 : height ⟨⟨a + 1, 0, 0⟩, ⟨1 / √3, 1 / √3, 1 / √3⟩⟩ x = (x.x + x.y + x.z - (a + 1)) * (1 / √3) := by
    simp only [height]; ring
  simp only [cornerPH, List.forall_mem_cons, List.not_mem_nil, false_imp_iff, implies_true, and_true, e1, e2, e3, e4]

private theorem corner_behind (a : ℝ) (x : Vec3 ℝ) :
    x ∈ behind (cornerPH a) ↔ a ≤ x.x ∧ 0 ≤ x.y ∧ 0 ≤ x.z ∧ x.x + x.y + x.z ≤ a + 1 := by
  have := corner_height a (· ≤ 0) x
  unfold behind
  rw [Set.mem_setOf_eq, this]
  have k : (x.x + x.y + x.z - (a + 1)) * (1 / √3) ≤ 0 ↔ x.x + x.y + x.z ≤ a + 1 := by
    have := s3
    constructor
    · intro h; by_contra hc
      nlinarith [mul_pos (sub_pos.2 (not_le.1 hc)) this]
    · intro h; nlinarith
  rw [k]
  constructor <;> rintro ⟨h1, h2, h3, h4⟩ <;> refine ⟨by linarith, by linarith, by linarith, h4⟩

/-- Two such tetrahedra, and a pair of points between which the midpoint is well inside: the hypotheses of
`C75_small_partial` hold. -/
example : FlatFaces (cornerPH 0) ∧ FlatFaces (cornerPH (1 / 10)) ∧
    (1 / 10000 ≤ ed (⟨2 / 10, 3 / 10, 1 / 10⟩ : Vec3 ℝ) ⟨2 / 10, 1 / 10, 3 / 10⟩) ∧
    (∀ a ∈ ({0, 1 / 10} : Set ℝ), ∀ f ∈ (cornerPH a).face, height ⟨(cornerPH a).vert f.i0, f.norm⟩
      ((⟨2 / 10, 3 / 10, 1 / 10⟩ : Vec3 ℝ).mid ⟨2 / 10, 1 / 10, 3 / 10⟩) ≤ -(1 / 100000)) ∧
    ∀ x ∈ behind (cornerPH 0) ∩ behind (cornerPH (1 / 10)),
      ed x ((⟨2 / 10, 3 / 10, 1 / 10⟩ : Vec3 ℝ).mid ⟨2 / 10, 1 / 10, 3 / 10⟩) ≤ 100000 := by
  have em : (⟨2 / 10, 3 / 10, 1 / 10⟩ : Vec3 ℝ).mid ⟨2 / 10, 1 / 10, 3 / 10⟩ = ⟨2 / 10, 2 / 10, 2 / 10⟩ := by
    ext <;> norm_num [Vec3.mid, Vec3.mul, Vec3.add]
  rw [em]
  refine ⟨corner_flat _, corner_flat _, ?_, ?_, ?_⟩
  · unfold ed sqd
    exact Real.le_sqrt_of_sq_le (by norm_num)
  · intro a ha
    rw [corner_height a (· ≤ -(1 / 100000))]
    have := s3'
    rcases ha with rfl | rfl <;> refine ⟨by norm_num, by norm_num, by norm_num, ?_⟩ <;> norm_num <;> norm_num at this <;> linarith
  · rintro x ⟨h, -⟩
    obtain ⟨h1, h2, h3, h4⟩ := (corner_behind _ _).1 h
    unfold ed sqd
    rw [Real.sqrt_le_left (by norm_num)]
    nlinarith

/-- **The result can be larger than the intersection.** `zIntersectPH3D` moves a face that is nearer to the base point
than `ZEO_TRI3D_DUALXFORM_MIN_OFFSET` away from it. Here both polyhedra are the same tetrahedron `x, y, z ≥ 0`,
`x + y + z ≤ 1`, the two points that `zGJKDepth` reports are inside it and far enough apart, and the result contains a
point with negative `x`, for all small tolerances. -/
theorem C75_clamp_false (ε : ℝ) (h0 : 0 < ε) (h1 : ε < 1 / 100000) :
    ∃ c : Vec3 ℝ × Vec3 ℝ, c.1 ∈ behind (cornerPH 0) ∧ c.2 ∈ behind (cornerPH 0) ∧ 1 / 10000 ≤ ed c.1 c.2 ∧
      ∃ τ₀ > 0, ∀ τ, 0 ≤ τ → τ ≤ τ₀ → ∀ maxIter old sort, ∃ ph x,
        intersectPH τ sort maxIter (fun _ _ => some c) (cornerPH 0) (cornerPH 0) old = some ph ∧
        x ∈ behind ph ∧ InHull {v | ∃ i < ph.nv, v = ph.vert i} x ∧ x ∉ behind (cornerPH 0) := by
  have em : (⟨ε, 3 / 10, 1 / 10⟩ : Vec3 ℝ).mid ⟨ε, 1 / 10, 3 / 10⟩ = ⟨ε, 2 / 10, 2 / 10⟩ := by
    ext <;> norm_num [Vec3.mid, Vec3.mul, Vec3.add]; ring
  have hc : 1 / 10000 ≤ ed (⟨ε, 3 / 10, 1 / 10⟩ : Vec3 ℝ) ⟨ε, 1 / 10, 3 / 10⟩ := by
    unfold ed sqd
    exact Real.le_sqrt_of_sq_le (by norm_num)
  refine ⟨(⟨ε, 3 / 10, 1 / 10⟩, ⟨ε, 1 / 10, 3 / 10⟩), (corner_behind _ _).2 ?_, (corner_behind _ _).2 ?_, hc, ?_⟩
  · refine ⟨by linarith, by norm_num, by norm_num, ?_⟩; dsimp only; linarith
  · refine ⟨by linarith, by norm_num, by norm_num, ?_⟩; dsimp only; linarith
  set p : Vec3 ℝ := ⟨ε, 2 / 10, 2 / 10⟩ with hp
  obtain ⟨t1, ht1, k1⟩ := C69_margin (dualPoints (1 / 100000) p (cornerPH 0) ++ dualPoints (1 / 100000) p (cornerPH 0))
  obtain ⟨t2, ht2, k2⟩ := C69_margin (meetPoints p (dualPoints (1 / 100000) p (cornerPH 0) ++ dualPoints (1 / 100000) p (cornerPH 0)))
  refine ⟨min (min t1 t2) (ε / 2), by positivity, fun τ hτ0 hτ maxIter old sort => ?_⟩
  have a1 : τ ≤ t1 := hτ.trans ((min_le_left _ _).trans (min_le_left _ _))
  have a2 : τ ≤ t2 := hτ.trans ((min_le_left _ _).trans (min_le_right _ _))
  have a3 : τ ≤ ε / 2 := hτ.trans (min_le_right _ _)
  have g : ∀ f ∈ (cornerPH 0).face, height ⟨(cornerPH 0).vert f.i0, f.norm⟩ p < -τ := by
    rw [corner_height 0 (· < -τ)]
    have := s3'
    refine ⟨?_, ?_, ?_, ?_⟩ <;> simp only [hp] <;> nlinarith
  have g0 : ∀ f ∈ (cornerPH 0).face, height ⟨(cornerPH 0).vert f.i0, f.norm⟩ p < 0 := fun f hf => by
    have := g f hf; linarith
  have hb := C75_base_inside (τ := τ) (corner_flat 0) (corner_flat 0) maxIter g g
  have hfar : ∀ x ∈ behindFrom (1 / 100000) p (cornerPH 0) ∩ behindFrom (1 / 100000) p (cornerPH 0), ed x p ≤ 100000 := by
    rintro x ⟨hx, -⟩
    obtain ⟨b1, b2, b3, b4⟩ := (corner_height 0 (· ≤ 1 / 100000) x).1 (from_near g0 hx)
    have := s3'
    have b5 : x.x + x.y + x.z ≤ 2 := by
      by_contra hc
      nlinarith [mul_le_mul_of_nonneg_left this (show 0 ≤ x.x + x.y + x.z - (0 + 1) by linarith)]
    unfold ed sqd
    rw [Real.sqrt_le_left (by norm_num)]
    simp only [hp]
    have c1 : |x.x - ε| ≤ 10 := abs_le.2 ⟨by linarith, by linarith⟩
    have c2 : |x.y - 2 / 10| ≤ 10 := abs_le.2 ⟨by linarith, by linarith⟩
    have c3 : |x.z - 2 / 10| ≤ 10 := abs_le.2 ⟨by linarith, by linarith⟩
    have d1 := sq_le_sq' (abs_le.1 c1).1 (abs_le.1 c1).2
    have d2 := sq_le_sq' (abs_le.1 c2).1 (abs_le.1 c2).2
    have d3 := sq_le_sq' (abs_le.1 c3).1 (abs_le.1 c3).2
    linarith
  obtain ⟨ph, k3, k4, k5, -⟩ := C75_dual (sort := sort) (old := old) hτ0 g0 g0 hfar (k1 τ hτ0 a1) (k2 τ hτ0 a2)
  have hx : (⟨ε - 1 / 100000, 2 / 10, 2 / 10⟩ : Vec3 ℝ) ∈ behind ph := by
    rw [k4, Set.inter_self]
    intro f hf
    refine le_max_of_le_left ?_
    have : dot f.norm ((⟨ε - 1 / 100000, 2 / 10, 2 / 10⟩ : Vec3 ℝ).sub p) = -f.norm.x / 100000 := by
      simp only [dot, Vec3.sub, hp]; ring
    rw [this]
    simp only [cornerPH, List.mem_cons, List.not_mem_nil, or_false] at hf
    have := s3
    rcases hf with rfl | rfl | rfl | rfl <;> dsimp only <;> linarith
  refine ⟨ph, _, ?_, hx, (k5 _).2 hx, fun h => ?_⟩
  · rw [intersect_dual (p := p) rfl hc (by dsimp only; rw [em]; exact hb), k3]
  · have := ((corner_behind _ _).1 h).1
    dsimp only at this
    linarith

/-! ## Collision -/

private theorem vert_shows (ph : PH ℝ) : (Data.assignArray ph.vertArray).WF ∧ (Data.assignArray ph.vertArray).Shows ph.vertArray :=
  ⟨(C35_wf (xs := ph.vertArray) [] (Vec3.zero : Vec3 ℝ) 0).2.2.1, (C35_readonly ph.vertArray [] Vec3.zero).1⟩

private theorem vert_set (ph : PH ℝ) : {x | x ∈ ph.vertArray} = {v | ∃ i < ph.nv, v = ph.vert i} := by
  ext x
  simp only [PH.vertArray, Set.mem_setOf_eq, List.mem_map, List.mem_range]
  constructor <;> rintro ⟨i, h, e⟩ <;> exact ⟨i, h, e.symm⟩

/-- **Collision of polyhedra.** With zero tolerance `zColChkPH3D` ends for all polyhedra with vertices, and the two
points are nearest points of the convex hulls of the vertices. Missing: positive tolerances (`C51_result`) and the
value returned (`C51_return_partial`, refuted in general by `C51_false_contact`). -/
theorem C75_collision_partial (junk : ℝ) (jv : Vec3 ℝ) (ph1 ph2 : PH ℝ) (h1 : 0 < ph1.nv) (h2 : 0 < ph2.nv) :
    ∃ N, ∀ fuel, N ≤ fuel → ∃ r c1 c2, colChkPH 0 junk jv fuel ph1 ph2 = some (.ret r c1 c2) ∧
      InHull {v | ∃ i < ph1.nv, v = ph1.vert i} c1 ∧ InHull {v | ∃ i < ph2.nv, v = ph2.vert i} c2 ∧
      ∀ a b, InHull {v | ∃ i < ph1.nv, v = ph1.vert i} a → InHull {v | ∃ i < ph2.nv, v = ph2.vert i} b →
        sqd c1 c2 ≤ sqd a b := by
  have ne : ∀ ph : PH ℝ, 0 < ph.nv → ph.vertArray ≠ [] := by
    intro ph h e
    have := congrArg List.length e
    simp [PH.vertArray] at this
    omega
  have := C51_nearest_partial junk jv _ _ (vert_shows ph1).1 (vert_shows ph2).1 _ _ (vert_shows ph1).2 (vert_shows ph2).2
    (ne ph1 h1) (ne ph2 h2)
  rw [vert_set, vert_set] at this
  exact this

example : 0 < (cornerPH 0).nv ∧ 0 < (cornerPH 5).nv := ⟨by norm_num [cornerPH], by norm_num [cornerPH]⟩

/-- **Polyhedra that touch**: for every tolerance up to 1/4 the two points are near (see `C51_contact_near`). -/
theorem C75_contact (τ : ℝ) (hτ : 0 ≤ τ) (hτ' : τ ≤ 1/4) (junk : ℝ) (jv : Vec3 ℝ) (ph1 ph2 : PH ℝ) (h1 : 0 < ph1.nv)
    (h2 : 0 < ph2.nv) (fuel : ℕ) (r : Prop) (c1 c2 : Vec3 ℝ) (ho : colChkPH τ junk jv fuel ph1 ph2 = some (.ret r c1 c2))
    (hT : GJK.AboveTol τ {x | ∃ i < ph1.nv, ∃ j < ph2.nv, x = (ph1.vert i).sub (ph2.vert j)}) (R : ℝ)
    (hR : ∀ i < ph1.nv, ∀ j < ph2.nv, |(ph1.vert i).x - (ph2.vert j).x| ≤ R ∧ |(ph1.vert i).y - (ph2.vert j).y| ≤ R ∧
      |(ph1.vert i).z - (ph2.vert j).z| ≤ R)
    (hc : ∃ c, InHull {v | ∃ i < ph1.nv, v = ph1.vert i} c ∧ InHull {v | ∃ i < ph2.nv, v = ph2.vert i} c) :
    |c1.x - c2.x| ≤ Real.sqrt τ + 4 * τ * R ∧ |c1.y - c2.y| ≤ Real.sqrt τ + 4 * τ * R ∧ |c1.z - c2.z| ≤ Real.sqrt τ + 4 * τ * R := by
  have ne : ∀ ph : PH ℝ, 0 < ph.nv → ph.vertArray ≠ [] := by
    intro ph h e
    have := congrArg List.length e
    simp [PH.vertArray] at this
    omega
  have hmem : ∀ (ph : PH ℝ) x, x ∈ ph.vertArray ↔ ∃ i < ph.nv, x = ph.vert i := fun ph x => by
    have := vert_set ph
    exact Set.ext_iff.1 this x
  refine C51_contact_near τ hτ hτ' junk jv _ _ (vert_shows ph1).1 (vert_shows ph2).1 _ _ (vert_shows ph1).2 (vert_shows ph2).2
    (ne ph1 h1) (ne ph2 h2) fuel r c1 c2 ho ?_ R ?_ (by rw [vert_set, vert_set]; exact hc)
  · refine Eq.mp (congrArg _ (Set.ext fun x => ?_)) hT
    constructor
    · rintro ⟨i, hi, j, hj, rfl⟩
      exact ⟨_, (hmem _ _).2 ⟨i, hi, rfl⟩, _, (hmem _ _).2 ⟨j, hj, rfl⟩, rfl⟩
    · rintro ⟨a, ha, b, hb, rfl⟩
      obtain ⟨i, hi, rfl⟩ := (hmem _ _).1 ha
      obtain ⟨j, hj, rfl⟩ := (hmem _ _).1 hb
      exact ⟨i, hi, j, hj, rfl⟩
  · intro a ha b hb
    obtain ⟨i, hi, rfl⟩ := (hmem _ _).1 ha
    obtain ⟨j, hj, rfl⟩ := (hmem _ _).1 hb
    exact hR i hi j hj

end Zeo

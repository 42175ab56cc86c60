import Verif.Lemmas.BRep
import Verif.Lemmas.Rot

/-! # Truncation of a boundary representation: the whole function -/

namespace Zeo
open Spec
namespace BRep

/-- What the rebuilding of a list of faces achieves. -/
structure RebuiltAll (b : BRep) (fs : List BFace) (b' : BRep) (out : List BFace) : Prop where
  ready : Ready b'
  grow : Grow b b'
  post : ∀ g ∈ out, Post b' g
  cover : ∀ f ∈ fs, ∃ l : List BFace, Clips (b.cp f) (b.cd f) (l.map b.cp) ∧ ∀ g ∈ l, g ∈ out
  origin : ∀ g ∈ out, ∃ f ∈ fs, ∃ l : List BFace, Clips (b.cp f) (b.cd f) (l.map b.cp) ∧ g ∈ l

theorem truncFaces_ok (fs : List BFace) : ∀ {b : BRep}, Ready b → (∀ f ∈ fs, Sides b f) →
    ∃ b' n o, truncFaces b fs = some (b', n, o) ∧ RebuiltAll b fs b' (n ++ o) := by
  induction fs with
  | nil =>
    intro b h _
    exact ⟨b, [], [], rfl, h, .refl b, by simp, by simp, by simp⟩
  | cons f fs ih =>
    intro b h hs
    obtain ⟨b1, n1, o1, e1, r1⟩ := truncFace_ok h (hs f (by simp))
    obtain ⟨b2, n2, o2, e2, r2⟩ := ih r1.ready fun g hg => r1.grow.sides (hs g (by simp [hg]))
    have mem : ∀ g, g ∈ (n2 ++ n1) ++ (o1 ++ o2) ↔ g ∈ n1 ++ o1 ∨ g ∈ n2 ++ o2 := fun g => by
      simp only [List.mem_append]; tauto
    refine ⟨b2, n2 ++ n1, o1 ++ o2, by simp only [truncFaces, e1, e2, Option.bind_eq_bind, Option.bind_some]; rfl,
      r2.ready, r1.grow.trans r2.grow, ?_, ?_, ?_⟩
    · intro g hg
      rcases (mem g).1 hg with hg | hg
      · exact r2.grow.post (r1.post g hg)
      · exact r2.post g hg
    · intro g hg
      rcases List.mem_cons.1 hg with rfl | hg
      · exact ⟨n1 ++ o1, r1.clips, fun k hk => (mem k).2 (Or.inl hk)⟩
      · obtain ⟨l, hl, hm⟩ := r2.cover g hg
        refine ⟨l, ?_, fun k hk => (mem k).2 (Or.inr (hm k hk))⟩
        rw [r1.grow.cp, r1.grow.cd] at hl
        have : b1.cp = b.cp := funext fun k => r1.grow.cp k
        rw [this] at hl; exact hl
    · intro g hg
      rcases (mem g).1 hg with hg | hg
      · exact ⟨f, by simp, _, r1.clips, hg⟩
      · obtain ⟨k, hk, l, hl, hm⟩ := r2.origin g hg
        refine ⟨k, by simp [hk], l, ?_, hm⟩
        rw [r1.grow.cp, r1.grow.cd] at hl
        have : b1.cp = b.cp := funext fun k => r1.grow.cp k
        rw [this] at hl; exact hl

/-- Invariant of the cutting of the edges; `todo` are the edges not visited yet. -/
structure CutInv (b0 b : BRep) (todo : List ℕ) : Prop where
  flist : b.flist = b0.flist
  elist : b.elist = b0.elist
  ne : b.ne = b0.ne
  nodup : b.vlist.Nodup
  vlt : ∀ i ∈ b.vlist, i < b.nv
  nv : b0.nv ≤ b.nv
  sub : ∀ i ∈ b0.vlist, i ∈ b.vlist
  vert : ∀ i, i < b0.nv → b.vert i = b0.vert i
  ends : ∀ e ∈ b0.elist, (b.edge e).v0 = (b0.edge e).v0 ∧ (b.edge e).v1 = (b0.edge e).v1
  wait : ∀ e ∈ todo, (b.edge e).x = none
  cut : ∀ e ∈ b0.elist, e ∉ todo → b0.dist (b0.edge e).v0 * b0.dist (b0.edge e).v1 < 0 →
    ∃ n s, (b.edge e).x = some n ∧ n ∈ b.vlist ∧ b.dist n = 0 ∧ 0 < s ∧ s < 1 ∧
    (1 - s) * b0.dist (b0.edge e).v0 + s * b0.dist (b0.edge e).v1 = 0 ∧
    b.pos n = lerp s (b0.pos (b0.edge e).v0) (b0.pos (b0.edge e).v1)
  nocut : ∀ e ∈ b0.elist, e ∉ todo → ¬ b0.dist (b0.edge e).v0 * b0.dist (b0.edge e).v1 < 0 →
    (b.edge e).x = none

theorem ratio_ok {d0 d1 : ℝ} (h : d0 * d1 < 0) : 0 < |d0| / (|d0| + |d1|) ∧ |d0| / (|d0| + |d1|) < 1 ∧
    (1 - |d0| / (|d0| + |d1|)) * d0 + |d0| / (|d0| + |d1|) * d1 = 0 := by
  have h0 : d0 ≠ 0 := by rintro rfl; simp at h
  have h1 : d1 ≠ 0 := by rintro rfl; simp at h
  have p0 := abs_pos.2 h0
  have p1 := abs_pos.2 h1
  refine ⟨by positivity, by rw [div_lt_one (by positivity)]; linarith, ?_⟩
  have : |d0| + |d1| ≠ 0 := by positivity
  field_simp
  rcases lt_or_gt_of_ne h0 with k0 | k0
  · have k1 : 0 < d1 := by by_contra hc; nlinarith [lt_of_le_of_ne (not_lt.1 hc) h1]
    rw [abs_of_neg k0, abs_of_pos k1]; ring
  · have k1 : d1 < 0 := by
      by_contra hc; nlinarith [lt_of_le_of_ne (not_lt.1 hc) h1.symm]
    rw [abs_of_pos k0, abs_of_neg k1]; ring

theorem interDiv_lerp (P Q : Vec3 ℝ) (r : ℝ) : P.interDiv Q r = lerp r P Q := by
  simp only [Vec3.interDiv, lerp, comb, Vec3.mk.injEq]; refine ⟨?_, ?_, ?_⟩ <;> ring

theorem cutEdge_inv {b0 b : BRep} (vlt0 : ∀ i ∈ b0.vlist, i < b0.nv)
    (ends0 : ∀ e ∈ b0.elist, (b0.edge e).v0 ∈ b0.vlist ∧ (b0.edge e).v1 ∈ b0.vlist) {e : ℕ} {l : List ℕ}
    (he : e ∈ b0.elist) (hl : e ∉ l) (h : CutInv b0 b (e :: l)) : CutInv b0 (b.cutEdge e) l := by
  have vv : ∀ k ∈ b0.elist, b.vert (b0.edge k).v0 = b0.vert (b0.edge k).v0 ∧
      b.vert (b0.edge k).v1 = b0.vert (b0.edge k).v1 := fun k hk =>
    ⟨h.vert _ (vlt0 _ (ends0 k hk).1), h.vert _ (vlt0 _ (ends0 k hk).2)⟩
  obtain ⟨w0, w1⟩ := vv e he
  obtain ⟨n0, n1⟩ := h.ends e he
  have hd0 : b.dist (b.edge e).v0 = b0.dist (b0.edge e).v0 := by simp only [BRep.dist, n0, w0]
  have hd1 : b.dist (b.edge e).v1 = b0.dist (b0.edge e).v1 := by simp only [BRep.dist, n1, w1]
  have hp0 : b.pos (b.edge e).v0 = b0.pos (b0.edge e).v0 := by simp only [BRep.pos, n0, w0]
  have hp1 : b.pos (b.edge e).v1 = b0.pos (b0.edge e).v1 := by simp only [BRep.pos, n1, w1]
  unfold cutEdge
  dsimp only
  rw [hd0, hd1, hp0, hp1]
  split
  · rename_i hneg
    have fresh : b.nv ∉ b.vlist := fun hm => lt_irrefl _ (h.vlt _ hm)
    refine ⟨h.flist, h.elist, h.ne, ?_, ?_, Nat.le_succ_of_le h.nv, ?_, ?_, ?_, ?_, ?_, ?_⟩
    · show (b.vlist ++ [b.nv]).Nodup
      rw [List.nodup_append]
      exact ⟨h.nodup, by simp, fun x hx y hy => by
        rw [List.mem_singleton] at hy; subst hy; exact fun h' => fresh (h' ▸ hx)⟩
    · intro i hi
      show i < b.nv + 1
      rcases List.mem_append.1 hi with hi | hi
      · have := h.vlt i hi; omega
      · rw [List.mem_singleton] at hi; omega
    · intro i hi; exact List.mem_append_left _ (h.sub i hi)
    · intro i hi
      show Function.update b.vert b.nv _ i = _
      rw [Function.update_of_ne (by have := h.nv; omega)]; exact h.vert i hi
    · intro k hk
      show (Function.update b.edge e _ k).v0 = _ ∧ (Function.update b.edge e _ k).v1 = _
      by_cases hke : k = e
      · subst hke; simp only [Function.update_self]; exact h.ends k hk
      · rw [Function.update_of_ne hke]; exact h.ends k hk
    · intro k hk
      show (Function.update b.edge e _ k).x = none
      rw [Function.update_of_ne (show k ≠ e from fun h' => hl (h' ▸ hk))]; exact h.wait k (List.mem_cons_of_mem _ hk)
    · intro k hk hkl hkneg
      by_cases hke : k = e
      · subst hke
        obtain ⟨r0, r1, r2⟩ := ratio_ok hkneg
        refine ⟨b.nv, _, ?_, ?_, ?_, r0, r1, r2, ?_⟩
        · show (Function.update b.edge k _ k).x = _
          rw [Function.update_self]
        · exact List.mem_append_right _ (by simp)
        · show (Function.update b.vert b.nv _ b.nv).d = 0
          rw [Function.update_self]
        · show (Function.update b.vert b.nv _ b.nv).p = _
          rw [Function.update_self]; exact interDiv_lerp _ _ _
      · obtain ⟨n, s, hx, hn, hd, hrest⟩ := h.cut k hk (by
          rw [List.mem_cons]; rintro (rfl | hm) <;> [exact hke rfl; exact hkl hm]) hkneg
        have hne : n ≠ b.nv := fun h' => fresh (h' ▸ hn)
        refine ⟨n, s, ?_, List.mem_append_left _ hn, ?_, hrest.1, hrest.2.1, hrest.2.2.1, ?_⟩
        · show (Function.update b.edge e _ k).x = _
          rw [Function.update_of_ne hke]; exact hx
        · show (Function.update b.vert b.nv _ n).d = 0
          rw [Function.update_of_ne hne]; exact hd
        · show (Function.update b.vert b.nv _ n).p = _
          rw [Function.update_of_ne hne]; exact hrest.2.2.2
    · intro k hk hkl hkneg
      show (Function.update b.edge e _ k).x = none
      have hke : k ≠ e := by rintro rfl; exact hkneg hneg
      rw [Function.update_of_ne hke]
      exact h.nocut k hk (by rw [List.mem_cons]; rintro (rfl | hm) <;> [exact hke rfl; exact hkl hm]) hkneg
  · rename_i hneg
    refine ⟨h.flist, h.elist, h.ne, h.nodup, h.vlt, h.nv, h.sub, h.vert, h.ends,
      fun k hk => h.wait k (List.mem_cons_of_mem _ hk), ?_, ?_⟩
    · intro k hk hkl hkneg
      refine h.cut k hk ?_ hkneg
      rw [List.mem_cons]; rintro (rfl | hm) <;> [exact hneg hkneg; exact hkl hm]
    · intro k hk hkl hkneg
      by_cases hke : k = e
      · subst hke; exact h.wait k (by simp)
      · exact h.nocut k hk (by rw [List.mem_cons]; rintro (rfl | hm) <;> [exact hke rfl; exact hkl hm]) hkneg

theorem cutEdges_inv {b : BRep} (h : Sound b) : CutInv b b.cutEdges [] := by
  have key : ∀ (l : List ℕ) (c : BRep), l.Nodup → (∀ e ∈ l, e ∈ b.elist) → CutInv b c l →
      CutInv b (l.foldl cutEdge c) [] := by
    intro l
    induction l with
    | nil => intro c _ _ hc; exact hc
    | cons e l ih =>
      intro c hn hm hc
      rw [List.foldl_cons]
      rw [List.nodup_cons] at hn
      exact ih _ hn.2 (fun k hk => hm k (by simp [hk])) (cutEdge_inv h.vlt h.ends (hm e (by simp)) hn.1 hc)
  refine key b.elist b h.enodup (fun _ h => h) ⟨rfl, rfl, rfl, h.vnodup, h.vlt, le_refl _, fun _ h => h,
    fun _ _ => rfl, fun _ _ => ⟨rfl, rfl⟩, h.nocut, ?_, ?_⟩
  · intro e he hne; exact absurd he hne
  · intro e he hne; exact absurd he hne

theorem cutEdges_ready {b : BRep} (h : Sound b) : Ready b.cutEdges := by
  have i := cutEdges_inv h
  have vv : ∀ k ∈ b.elist, b.cutEdges.vert (b.edge k).v0 = b.vert (b.edge k).v0 ∧
      b.cutEdges.vert (b.edge k).v1 = b.vert (b.edge k).v1 := fun k hk =>
    ⟨i.vert _ (h.vlt _ (h.ends k hk).1), i.vert _ (h.vlt _ (h.ends k hk).2)⟩
  refine ⟨i.nodup, i.elist ▸ h.enodup, i.vlt, fun e he => i.ne ▸ h.elt e (i.elist ▸ he), ?_, ?_, ?_⟩
  · intro e he
    rw [i.elist] at he
    rw [(i.ends e he).1, (i.ends e he).2]
    exact ⟨i.sub _ (h.ends e he).1, i.sub _ (h.ends e he).2⟩
  · intro e he hneg
    rw [i.elist] at he
    rw [(i.ends e he).1, (i.ends e he).2] at hneg ⊢
    simp only [BRep.dist, BRep.pos, (vv e he).1, (vv e he).2] at hneg ⊢
    exact i.cut e he (by simp) hneg
  · intro e he hneg
    rw [i.elist] at he
    rw [(i.ends e he).1, (i.ends e he).2] at hneg
    simp only [BRep.dist, (vv e he).1, (vv e he).2] at hneg
    exact i.nocut e he (by simp) hneg

theorem sound_sides {b : BRep} (h : Sound b) {f : BFace} (hf : f ∈ b.flist) : Sides b f := fun i =>
  ⟨h.corner f hf i, h.side f hf i⟩

theorem cutEdges_sides {b : BRep} (h : Sound b) {f : BFace} (hf : f ∈ b.flist) : Sides b.cutEdges f := fun j => by
  have i := cutEdges_inv h
  obtain ⟨h1, h2, h3⟩ := sound_sides h hf j
  refine ⟨i.sub _ h1, i.elist ▸ h2, ?_⟩
  simpa only [SamePair, (i.ends _ h2).1, (i.ends _ h2).2] using h3

theorem cutEdges_cp {b : BRep} (h : Sound b) {f : BFace} (hf : f ∈ b.flist) :
    b.cutEdges.cp f = b.cp f ∧ b.cutEdges.cd f = b.cd f := by
  have i := cutEdges_inv h
  constructor <;> funext j <;> simp only [cp, cd, BRep.pos, BRep.dist] <;>
    rw [i.vert _ (h.vlt _ (h.corner f hf j))]

theorem bbMark_sound {τ : ℝ} {b : BRep} (h : Sound b) (pl : Plane3 ℝ) : Sound (b.bbMark τ pl) :=
  ⟨h.vnodup, h.enodup, h.vlt, h.elt, h.ends, h.nocut, h.corner, h.side⟩

theorem bbMark_pos (τ : ℝ) (b : BRep) (pl : Plane3 ℝ) (i : ℕ) : (b.bbMark τ pl).pos i = b.pos i := by
  simp only [bbMark, BRep.pos]; split <;> rfl

theorem bbMark_dist {τ : ℝ} {b : BRep} {pl : Plane3 ℝ} {i : ℕ} (h : i ∈ b.vlist) :
    (b.bbMark τ pl).dist i = planeDist τ pl (b.pos i) := by
  simp only [bbMark, BRep.dist, if_pos h]

theorem planeDist_near {τ : ℝ} (hτ : 0 ≤ τ) (pl : Plane3 ℝ) (q : Vec3 ℝ) :
    |planeDist τ pl q - height pl q| ≤ τ := by
  have e : (q.sub pl.org).inner pl.norm = height pl q := by simp only [height, Vec3.sub, Vec3.inner]
  simp only [planeDist, e]
  split
  · rename_i h; rw [zero_sub, abs_neg]; exact h
  · simpa using hτ

theorem height_comb (pl : Plane3 ℝ) (a b c : ℝ) (P Q R : Vec3 ℝ) (h : a + b + c = 1) :
    height pl (comb a b c 0 P Q R P) = a * height pl P + b * height pl Q + c * height pl R := by
  simp only [height, comb]
  linear_combination (pl.norm.x * pl.org.x + pl.norm.y * pl.org.y + pl.norm.z * pl.org.z) * h

/-- The convex combination of the heights in the cells is within `τ` of the height of the point. -/
theorem dist_comb {τ : ℝ} (hτ : 0 ≤ τ) (pl : Plane3 ℝ) {a b c : ℝ} (ha : 0 ≤ a) (hb : 0 ≤ b) (hc : 0 ≤ c)
    (hs : a + b + c = 1) (P Q R : Vec3 ℝ) :
    |a * planeDist τ pl P + b * planeDist τ pl Q + c * planeDist τ pl R -
      height pl (comb a b c 0 P Q R P)| ≤ τ := by
  rw [height_comb pl a b c P Q R hs]
  have h1 := abs_le.1 (planeDist_near hτ pl P)
  have h2 := abs_le.1 (planeDist_near hτ pl Q)
  have h3 := abs_le.1 (planeDist_near hτ pl R)
  rw [abs_le]
  constructor <;> nlinarith [mul_nonneg ha hτ]

/-- The edges and lists after the last two steps. -/
theorem finish_sound {b : BRep} (h : Ready b) {out : List BFace} (hp : ∀ g ∈ out, Post b g) :
    Sound ({ b with flist := out } : BRep).edgeShrink.release := by
  have mv : ∀ i, i ∈ ({ b with flist := out } : BRep).edgeShrink.release.vlist ↔
      i ∈ b.vlist ∧ ∃ f ∈ out, ∃ j, f.v j = i := fun i => by
    simp only [release, edgeShrink, List.mem_filter, decide_eq_true_eq]
  have me : ∀ e, e ∈ ({ b with flist := out } : BRep).edgeShrink.release.elist ↔
      e ∈ b.elist ∧ ∃ f ∈ out, ∃ j, f.e j = e := fun e => by
    simp only [release, edgeShrink, List.mem_filter, decide_eq_true_eq]
  have ed : ∀ e ∈ b.elist, (({ b with flist := out } : BRep).edgeShrink.release.edge e) =
      { b.shrinkEdge (b.edge e) with x := none } := fun e he => by
    simp only [release, edgeShrink, if_pos he]; rfl
  have sp : ∀ g ∈ out, ∀ j, SamePair (({ b with flist := out } : BRep).edgeShrink.release.edge (g.e j))
      (g.v (j + 1)) (g.v (j + 2)) := fun g hg j => by
    obtain ⟨_, h2, h3⟩ := hp g hg j
    rw [ed _ h2]; exact h3
  refine ⟨h.vnodup.filter _, h.enodup.filter _, fun i hi => h.vlt i ((mv i).1 hi).1,
    fun e he => h.elt e ((me e).1 he).1, ?_, ?_, ?_, ?_⟩
  · intro e he
    obtain ⟨_, g, hg, j, rfl⟩ := (me e).1 he
    have ma : g.v (j + 1) ∈ ({ b with flist := out } : BRep).edgeShrink.release.vlist :=
      (mv _).2 ⟨(hp g hg _).1, g, hg, _, rfl⟩
    have mb : g.v (j + 2) ∈ ({ b with flist := out } : BRep).edgeShrink.release.vlist :=
      (mv _).2 ⟨(hp g hg _).1, g, hg, _, rfl⟩
    rcases sp g hg j with ⟨h0, h1⟩ | ⟨h0, h1⟩ <;> rw [h0, h1]
    exacts [⟨ma, mb⟩, ⟨mb, ma⟩]
  · intro e he
    rw [ed e ((me e).1 he).1]
  · intro g hg i
    exact (mv _).2 ⟨(hp g hg i).1, g, hg, i, rfl⟩
  · intro g hg i
    exact ⟨(me _).2 ⟨(hp g hg i).2.1, g, hg, i, rfl⟩, sp g hg i⟩

theorem finish_used (b : BRep) (out : List BFace) :
    Used ({ b with flist := out } : BRep).edgeShrink.release := by
  refine ⟨fun i hi => ?_, fun e he => ?_⟩
  · simp only [release, edgeShrink, List.mem_filter, decide_eq_true_eq] at hi; exact hi.2
  · simp only [release, edgeShrink, List.mem_filter, decide_eq_true_eq] at he; exact he.2

theorem planeDist_low {τ : ℝ} {pl : Plane3 ℝ} {q : Vec3 ℝ} (h : height pl q ≤ τ) : planeDist τ pl q ≤ 0 := by
  have e : (q.sub pl.org).inner pl.norm = height pl q := by simp only [height, Vec3.sub, Vec3.inner]
  simp only [planeDist, e]
  split
  · exact le_refl _
  · rename_i hn
    by_contra hc
    exact hn (abs_le.2 ⟨by linarith [not_le.1 hc], h⟩)

/-- Everything about one truncation. -/
structure Truncated (τ : ℝ) (b : BRep) (pl : Plane3 ℝ) (b' : BRep) : Prop where
  sound : Sound b'
  cover : ∀ f ∈ b.flist, ∀ q ∈ triSet (corners b f), height pl q < -τ →
    ∃ g ∈ b'.flist, q ∈ triSet (corners b' g)
  origin : ∀ g ∈ b'.flist, ∃ f ∈ b.flist, (∀ q ∈ triSet (corners b' g), q ∈ triSet (corners b f) ∧ height pl q ≤ τ) ∧
    ∃ k, 0 < k ∧ triNormal (corners b' g) = (triNormal (corners b f)).mul k
  used : Used b → Used b'
  same : (∀ i ∈ b.vlist, height pl (b.pos i) ≤ τ) → b'.flist = b.flist ∧ b'.vlist = b.vlist ∧ b'.elist = b.elist ∧
    b'.edge = b.edge ∧ ∀ i, b'.pos i = b.pos i

theorem comb_comb {P : Fin 3 → Vec3 ℝ} {D : Fin 3 → ℝ} {T : Fin 3 → Vec3 ℝ}
    (h : ∀ i, ∃ a b c, 0 ≤ a ∧ 0 ≤ b ∧ 0 ≤ c ∧ a + b + c = 1 ∧ a * D 0 + b * D 1 + c * D 2 ≤ 0 ∧
      T i = comb a b c 0 (P 0) (P 1) (P 2) (P 0)) {q : Vec3 ℝ} (hq : q ∈ triSet (cornersOf T)) :
    ∃ a b c, 0 ≤ a ∧ 0 ≤ b ∧ 0 ≤ c ∧ a + b + c = 1 ∧ a * D 0 + b * D 1 + c * D 2 ≤ 0 ∧
      q = comb a b c 0 (P 0) (P 1) (P 2) (P 0) := by
  obtain ⟨u, v, w, hu, hv, hw, hs, rfl⟩ := hq
  obtain ⟨a0, b0, c0, a0p, b0p, c0p, s0, l0, e0⟩ := h 0
  obtain ⟨a1, b1, c1, a1p, b1p, c1p, s1, l1, e1⟩ := h 1
  obtain ⟨a2, b2, c2, a2p, b2p, c2p, s2, l2, e2⟩ := h 2
  refine ⟨u * a0 + v * a1 + w * a2, u * b0 + v * b1 + w * b2, u * c0 + v * c1 + w * c2, by positivity,
    by positivity, by positivity, ?_, ?_, ?_⟩
  · linear_combination u * s0 + v * s1 + w * s2 + hs
  · have := mul_nonpos_of_nonneg_of_nonpos hu l0
    have := mul_nonpos_of_nonneg_of_nonpos hv l1
    have := mul_nonpos_of_nonneg_of_nonpos hw l2
    linarith
  · simp only [cornersOf, e0, e1, e2]
    simp only [comb, Vec3.mk.injEq]
    refine ⟨?_, ?_, ?_⟩ <;> ring

theorem corners_cp (b : BRep) (f : BFace) : corners b f = cornersOf (b.cp f) := rfl

theorem trunc_ok {τ : ℝ} (hτ : 0 ≤ τ) {b : BRep} (h : Sound b) (pl : Plane3 ℝ) :
    ∃ b', b.trunc τ pl = some b' ∧ Truncated τ b pl b' := by
  have hm := bbMark_sound (τ := τ) h pl
  have cpm : ∀ f, (b.bbMark τ pl).cp f = b.cp f := fun f => funext fun i => bbMark_pos _ _ _ _
  have cdm : ∀ f ∈ b.flist, (b.bbMark τ pl).cd f = fun i => planeDist τ pl (b.cp f i) := fun f hf =>
    funext fun i => bbMark_dist (h.corner f hf i)
  unfold trunc
  dsimp only
  split
  · rename_i hc
    refine ⟨_, rfl, hm, ?_, ?_, fun hu => ⟨hu.verts, hu.edges⟩, fun _ => ⟨rfl, rfl, rfl, rfl, bbMark_pos _ _ _⟩⟩
    · intro f hf q hq _
      exact ⟨f, hf, by rw [corners_cp, cpm]; exact hq⟩
    · intro g hg
      refine ⟨g, hg, ?_, 1, by norm_num, by rw [corners_cp, cpm, ← corners_cp]; simp [Vec3.mul]⟩
      intro q hq
      rw [corners_cp, cpm] at hq
      refine ⟨hq, ?_⟩
      obtain ⟨u, v, w, hu, hv, hw, hs, rfl⟩ := hq
      have nonpos : ∀ i, planeDist τ pl (b.cp g i) ≤ 0 := fun i => by
        have := congrFun (cdm g hg) i
        rw [← this]
        by_contra hcon
        have hcon := not_le.1 hcon
        rw [bbCount, List.length_eq_zero_iff, List.filter_eq_nil_iff] at hc
        exact hc (g.v i) (h.corner g hg i) (decide_eq_true hcon)
      have k := (abs_le.1 (dist_comb hτ pl hu hv hw hs (b.cp g 0) (b.cp g 1) (b.cp g 2))).1
      have := mul_nonpos_of_nonneg_of_nonpos hu (nonpos 0)
      have := mul_nonpos_of_nonneg_of_nonpos hv (nonpos 1)
      have := mul_nonpos_of_nonneg_of_nonpos hw (nonpos 2)
      simp only [cornersOf]
      linarith
  · have fl : (b.bbMark τ pl).cutEdges.flist = b.flist := (cutEdges_inv hm).flist
    obtain ⟨b3, n, o, e3, r⟩ := truncFaces_ok (b.bbMark τ pl).cutEdges.flist (cutEdges_ready hm)
      (fun f hf => cutEdges_sides hm ((cutEdges_inv hm).flist ▸ hf))
    rw [e3]
    refine ⟨_, rfl, ?_⟩
    dsimp only
    have cpf : ∀ g, ({ b3 with flist := n ++ o } : BRep).edgeShrink.release.cp g = b3.cp g := fun _ => rfl
    have cp2 : ∀ f ∈ b.flist, (b.bbMark τ pl).cutEdges.cp f = b.cp f := fun f hf =>
      (cutEdges_cp hm (f := f) hf).1.trans (cpm f)
    have cd2 : ∀ f ∈ b.flist, (b.bbMark τ pl).cutEdges.cd f = fun i => planeDist τ pl (b.cp f i) := fun f hf =>
      (cutEdges_cp hm (f := f) hf).2.trans (cdm f hf)
    have cp3 : b3.cp = (b.bbMark τ pl).cutEdges.cp := funext fun g => r.grow.cp g
    refine ⟨finish_sound r.ready r.post, ?_, ?_, fun _ => finish_used b3 (n ++ o), ?_⟩
    rotate_left 2
    · intro hlow
      exfalso
      rename_i hc
      apply hc
      rw [bbCount, List.length_eq_zero_iff, List.filter_eq_nil_iff]
      intro i hi
      have hi : i ∈ b.vlist := hi
      rw [decide_eq_true_eq, bbMark_dist hi]
      exact not_lt.2 (planeDist_low (hlow i hi))
    · intro f hf q hq hneg
      obtain ⟨l, hl, hmem⟩ := r.cover f (fl ▸ hf)
      obtain ⟨u, v, w, hu, hv, hw, hs, rfl⟩ := hq
      rw [cp2 f hf, cd2 f hf] at hl
      have k := (abs_le.1 (dist_comb hτ pl hu hv hw hs (b.cp f 0) (b.cp f 1) (b.cp f 2))).2
      obtain ⟨T, hT, hqT⟩ := hl.cover u v w hu hv hw hs (by
        have : height pl (comb u v w 0 (b.cp f 0) (b.cp f 1) (b.cp f 2) (b.cp f 0)) < -τ := hneg
        linarith)
      obtain ⟨g, hg, rfl⟩ := List.mem_map.1 hT
      refine ⟨g, hmem g hg, ?_⟩
      rw [corners_cp, cpf, cp3]; exact hqT
    · intro g hg
      obtain ⟨f, hf, l, hl, hgl⟩ := r.origin g hg
      have hf' : f ∈ b.flist := fl ▸ hf
      rw [cp2 f hf', cd2 f hf'] at hl
      refine ⟨f, hf', ?_, ?_⟩
      · intro q hq
        rw [corners_cp, cpf, cp3] at hq
        obtain ⟨u, v, w, hu, hv, hw, hs, hle, rfl⟩ := comb_comb (P := b.cp f)
          (D := fun i => planeDist τ pl (b.cp f i)) (hl.below _ (List.mem_map_of_mem hgl)) hq
        refine ⟨⟨u, v, w, hu, hv, hw, hs, rfl⟩, ?_⟩
        have k := (abs_le.1 (dist_comb hτ pl hu hv hw hs (b.cp f 0) (b.cp f 1) (b.cp f 2))).1
        linarith
      · obtain ⟨k, hk, e⟩ := hl.orient _ (List.mem_map_of_mem hgl)
        refine ⟨k, hk, ?_⟩
        rw [corners_cp, cpf, cp3, e]; rfl

end BRep
end Zeo

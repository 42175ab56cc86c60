import Verif.Lemmas.QHInit
import Verif.Props.C20
import Verif.Props.C63
import Verif.Props.C35

/-! # C69: the convex hull of points in space

The theorems are about data that the tolerance resolves (`Spec.Resolves`). At tolerance zero that is every finite list
of points, repeated points and any number of points in a plane included (`C69_exact`), and every finite list is
resolved by all tolerances up to some positive one (`C69_margin`). When the tolerance is too coarse for the data the
hull is lost (`C69_coarse`). -/

namespace Zeo
noncomputable section
open Classical Spec QHMesh QHGeom

private theorem getD_mem {l : List (Vec3 ℝ)} {i : ℕ} (hi : i < l.length) : l.getD i .zero ∈ l := by
  rw [List.getD_eq_getElem _ _ hi]; exact List.getElem_mem hi

private theorem getD_inj {l : List (Vec3 ℝ)} (hl : l.Nodup) {i j : ℕ} (hi : i < l.length) (hj : j < l.length)
    (e : l.getD i .zero = l.getD j .zero) : i = j := by
  rw [List.getD_eq_getElem _ _ hi, List.getD_eq_getElem _ _ hj] at e
  exact (hl.getElem_inj_iff).1 e

private theorem mem_getD {l : List (Vec3 ℝ)} {p : Vec3 ℝ} (hp : p ∈ l) : ∃ i < l.length, l.getD i .zero = p := by
  obtain ⟨i, hi, e⟩ := List.getElem_of_mem hp
  exact ⟨i, hi, by rw [List.getD_eq_getElem _ _ hi]; exact e⟩

private theorem det_vol (a b c d : Vec3 ℝ) : det3 (b.sub a) (c.sub a) (d.sub a) = vol a b c d := by
  simp only [det3, vol_eq, Vec3.sub]; ring

private theorem outerProd_eq (a b c : Vec3 ℝ) : Tri3.outerProd a b c = triNormal (a, b, c) := by
  simp only [Tri3.outerProd, triNormal, Vec3.outer, Vec3.sub]
  ext <;> simp only <;> ring

private theorem res_of {τ : ℝ} (hτ : 0 ≤ τ) {l : List (Vec3 ℝ)} (h : Resolves τ l) :
    Res τ (fun i => l.getD i .zero) l.length := by
  have m : ∀ a < l.length, l.getD a .zero ∈ l := fun a ha => getD_mem ha
  have big : ∀ a < l.length, ∀ b < l.length, ∀ c < l.length,
      triNormal (l.getD a .zero, l.getD b .zero, l.getD c .zero) ≠ .zero →
      ¬ (Tri3.outerProd (l.getD a .zero) (l.getD b .zero) (l.getD c .zero)).isTol τ := by
    intro a ha b hb c hc hn ht
    rw [outerProd_eq, isTol_iff_near] at ht
    exact hn (h.big _ (m a ha) _ (m b hb) _ (m c hc) ht)
  refine ⟨hτ, fun a ha b hb => h.same _ (m a ha) _ (m b hb), fun a ha b hb c hc => h.bend _ (m a ha) _ (m b hb) _ (m c hc),
    ?_, ?_, ?_, ?_⟩
  · intro a ha b hb c hc d hd hn hle
    rw [← det_vol]; exact h.off _ (m a ha) _ (m b hb) _ (m c hc) _ (m d hd) hn hle
  · intro a ha b hb c hc d hd hn hn' hle
    rw [← det_vol]; exact h.fold _ (m a ha) _ (m b hb) _ (m c hc) _ (m d hd) hn hn' hle
  · intro a ha b hb c hc d hd hn h0 hin
    rw [← det_vol] at h0
    rw [C20_pointIsInside τ hτ h.small _ _ _ _ _ (Or.inl (big a ha b hb c hc hn))] at hin
    exact h.on _ (m a ha) _ (m b hb) _ (m c hc) _ (m d hd) hn h0 hin
  · intro ht a ha b hb c hc d hd hn hin
    rw [C20_pointIsInside τ hτ h.small _ _ _ _ _ (Or.inl (big a ha b hb c hc hn))]
    refine ⟨_, hin, ?_⟩
    have : ed (l.getD d .zero) (l.getD d .zero) = 0 := by unfold ed sqd; simp
    rw [this]; exact ht

private theorem range_set (l : List (Vec3 ℝ)) :
    {p | ∃ v < l.length, p = l.getD v .zero} = {p | p ∈ l} := by
  ext p
  constructor
  · rintro ⟨v, hv, rfl⟩; exact getD_mem hv
  · intro hp
    obtain ⟨i, hi, e⟩ := mem_getD hp
    exact ⟨i, hi, e.symm⟩

private theorem dot_unitN (a b c x : Vec3 ℝ) : dot (unitNormal a b c) (x.sub a) = height ⟨a, unitNormal a b c⟩ x := by
  simp only [height, dot, Vec3.sub]; ring

/-- What the choice of the first simplex says about the data. -/
private theorem dimension {τ : ℝ} (hτ : 0 ≤ τ) {l : List (Vec3 ℝ)} (h : Resolves τ l) :
    (∃ k, k ≠ 3 ∧ QH.simplexVert τ (fun i => l.getD i .zero) (List.range l.length) = .deg k ∧ Collinear {p | p ∈ l}) ∨
    (QH.simplexVert τ (fun i => l.getD i .zero) (List.range l.length) = .deg 3 ∧ Coplanar {p | p ∈ l} ∧
      ¬ Collinear {p | p ∈ l}) ∨
    (∃ v0 v1 v2 v3 pl, QH.simplexVert τ (fun i => l.getD i .zero) (List.range l.length) = .full v0 v1 v2 v3 pl ∧
      First (fun i => l.getD i .zero) l.length v0 v1 v2 v3 pl ∧ ¬ Coplanar {p | p ∈ l} ∧ ¬ Collinear {p | p ∈ l}) := by
  have r := res_of hτ h
  have notcol : ∀ a < l.length, ∀ b < l.length, ∀ c < l.length,
      triNormal (l.getD a .zero, l.getD b .zero, l.getD c .zero) ≠ .zero → ¬ Collinear {p | p ∈ l} := by
    rintro a ha b hb c hc hn ⟨o, e, hoe⟩
    obtain ⟨t0, e0⟩ := hoe _ (getD_mem ha)
    obtain ⟨t1, e1⟩ := hoe _ (getD_mem hb)
    obtain ⟨t2, e2⟩ := hoe _ (getD_mem hc)
    apply hn
    rw [e0, e1, e2]
    simp only [triNormal, Vec3.zero]
    ext <;> simp only <;> ring
  rcases simplexVert_spec r with ⟨k, hk, e, hcol⟩ | ⟨e, a, ha, b, hb, c, hc, hn, hv⟩ | ⟨v0, v1, v2, v3, pl, e, F⟩
  · refine Or.inl ⟨k, hk, e, ?_⟩
    rw [← range_set]
    rcases hcol with hall | ⟨a, ha, b, hb, hne, hall⟩
    · by_cases hl : 0 < l.length
      · refine ⟨l.getD 0 .zero, .zero, ?_⟩
        rintro p ⟨v, hv, rfl⟩
        refine ⟨0, ?_⟩
        have : l.getD v .zero = l.getD 0 .zero := hall v hv 0 hl
        rw [this]; simp
      · exact ⟨.zero, .zero, by rintro p ⟨v, hv, rfl⟩; omega⟩
    · have hne' : l.getD b .zero ≠ l.getD a .zero := hne
      set o := l.getD a .zero with ho
      set e := (l.getD b .zero).sub o with he
      have he0 : e ≠ .zero := by
        intro h0
        simp only [he, Vec3.sub, Vec3.zero, Vec3.mk.injEq, sub_eq_zero] at h0
        exact hne' (Vec3.ext h0.1 h0.2.1 h0.2.2)
      have hpos : e.x ^ 2 + e.y ^ 2 + e.z ^ 2 ≠ 0 := by
        intro h0
        apply he0
        ext
        · show e.x = 0; nlinarith [sq_nonneg e.x, sq_nonneg e.y, sq_nonneg e.z]
        · show e.y = 0; nlinarith [sq_nonneg e.x, sq_nonneg e.y, sq_nonneg e.z]
        · show e.z = 0; nlinarith [sq_nonneg e.x, sq_nonneg e.y, sq_nonneg e.z]
      refine ⟨o, e, ?_⟩
      rintro p ⟨v, hv, rfl⟩
      have h := hall v hv
      change triNormal (o, l.getD b .zero, l.getD v .zero) = .zero at h
      have hx : e.y * ((l.getD v .zero).z - o.z) - e.z * ((l.getD v .zero).y - o.y) = 0 := congrArg Vec3.x h
      have hy : e.z * ((l.getD v .zero).x - o.x) - e.x * ((l.getD v .zero).z - o.z) = 0 := congrArg Vec3.y h
      have hz : e.x * ((l.getD v .zero).y - o.y) - e.y * ((l.getD v .zero).x - o.x) = 0 := congrArg Vec3.z h
      set p := l.getD v .zero
      refine ⟨(e.x * (p.x - o.x) + e.y * (p.y - o.y) + e.z * (p.z - o.z)) / (e.x ^ 2 + e.y ^ 2 + e.z ^ 2), ?_⟩
      ext
      · simp only; field_simp; linear_combination e.z * hy - e.y * hz
      · simp only; field_simp; linear_combination -e.z * hx + e.x * hz
      · simp only; field_simp; linear_combination e.y * hx - e.x * hy
  · refine Or.inr (Or.inl ⟨e, ?_, notcol a ha b hb c hc hn⟩)
    rw [← range_set]
    refine ⟨_, hn, dot (triNormal (l.getD a .zero, l.getD b .zero, l.getD c .zero)) (l.getD a .zero), ?_⟩
    rintro p ⟨v, hv', rfl⟩
    have := hv v hv'
    simp only [vol, dot, Vec3.sub] at this ⊢
    linarith
  · have hn : triNormal (l.getD v0 .zero, l.getD v1 .zero, l.getD v2 .zero) ≠ .zero := proper_of_vol F.vol.ne
    refine Or.inr (Or.inr ⟨v0, v1, v2, v3, pl, e, F, ?_, notcol v0 (F.lt 0) v1 (F.lt 1) v2 (F.lt 2) hn⟩)
    rintro ⟨w, hw, κ, hκ⟩
    have p0 := hκ _ (getD_mem (F.lt 0))
    have p1 := hκ _ (getD_mem (F.lt 1))
    have p2 := hκ _ (getD_mem (F.lt 2))
    have p3 := hκ _ (getD_mem (F.lt 3))
    change dot w (l.getD v0 .zero) = κ at p0
    change dot w (l.getD v1 .zero) = κ at p1
    change dot w (l.getD v2 .zero) = κ at p2
    change dot w (l.getD v3 .zero) = κ at p3
    have c3 : vol (l.getD v0 .zero) (l.getD v1 .zero) (l.getD v2 .zero) (l.getD v3 .zero) ≠ 0 := F.vol.ne
    set a := l.getD v0 .zero
    set b := l.getD v1 .zero
    set c := l.getD v2 .zero
    set d := l.getD v3 .zero
    -- three independent vectors orthogonal to `w`
    have q1 : w.x * (b.x - a.x) + w.y * (b.y - a.y) + w.z * (b.z - a.z) = 0 := by simp only [dot] at *; linarith
    have q2 : w.x * (c.x - a.x) + w.y * (c.y - a.y) + w.z * (c.z - a.z) = 0 := by simp only [dot] at *; linarith
    have q3 : w.x * (d.x - a.x) + w.y * (d.y - a.y) + w.z * (d.z - a.z) = 0 := by simp only [dot] at *; linarith
    apply hw
    rw [vol_eq] at c3
    ext
    · refine (mul_eq_zero.1 (?_ : _ * w.x = 0)).resolve_left c3
      linear_combination ((c.y - a.y) * (d.z - a.z) - (c.z - a.z) * (d.y - a.y)) * q1 -
        ((b.y - a.y) * (d.z - a.z) - (b.z - a.z) * (d.y - a.y)) * q2 +
        ((b.y - a.y) * (c.z - a.z) - (b.z - a.z) * (c.y - a.y)) * q3
    · refine (mul_eq_zero.1 (?_ : _ * w.y = 0)).resolve_left c3
      linear_combination ((c.z - a.z) * (d.x - a.x) - (c.x - a.x) * (d.z - a.z)) * q1 -
        ((b.z - a.z) * (d.x - a.x) - (b.x - a.x) * (d.z - a.z)) * q2 +
        ((b.z - a.z) * (c.x - a.x) - (b.x - a.x) * (c.z - a.z)) * q3
    · refine (mul_eq_zero.1 (?_ : _ * w.z = 0)).resolve_left c3
      linear_combination ((c.x - a.x) * (d.y - a.y) - (c.y - a.y) * (d.x - a.x)) * q1 -
        ((b.x - a.x) * (d.y - a.y) - (b.y - a.y) * (d.x - a.x)) * q2 +
        ((b.x - a.x) * (c.y - a.y) - (b.y - a.y) * (c.x - a.x)) * q3

private theorem hullState {τ : ℝ} (hτ : 0 ≤ τ) (sort) {d : Data (Vec3 ℝ)} (h : Resolves τ d.toAddrList)
    (hn : ¬ Coplanar {p | p ∈ d.toAddrList}) :
    ∃ q, convexHull3 τ sort d = some (QH.toPH (fun i => d.toAddrList.getD i .zero) q) ∧
      Hull τ (fun i => d.toAddrList.getD i .zero) d.toAddrList.length q := by
  rcases dimension hτ h with ⟨k, -, -, hc⟩ | ⟨-, hc, -⟩ | ⟨v0, v1, v2, v3, pl, e, F, -⟩
  · exfalso
    apply hn
    obtain ⟨o, e, hoe⟩ := hc
    -- a plane through the line
    obtain ⟨w, hw, hwe⟩ : ∃ w : Vec3 ℝ, w ≠ .zero ∧ dot w e = 0 := by
      by_cases h0 : e.x = 0 ∧ e.y = 0
      · exact ⟨⟨1, 0, 0⟩, by simp [Vec3.zero], by simp [dot, h0.1]⟩
      · refine ⟨⟨-e.y, e.x, 0⟩, fun hc => h0 ?_, by simp only [dot]; ring⟩
        simp only [Vec3.zero, Vec3.mk.injEq, neg_eq_zero] at hc
        exact ⟨hc.2.1, hc.1⟩
    refine ⟨w, hw, dot w o, fun p hp => ?_⟩
    obtain ⟨t, rfl⟩ := hoe p hp
    simp only [dot] at hwe ⊢
    linear_combination t * hwe
  · exact absurd hc hn
  · refine ⟨_, ?_, create_spec (res_of hτ h) F⟩
    unfold convexHull3
    simp only [e]

section
variable {τ : ℝ} {pos : ℕ → Vec3 ℝ} {N : ℕ} {q : QH}

private theorem cvl (h : Hull τ pos N q) {f : ℕ} (hf : f ∈ q.fl) (s : Fin 3) : P q f s ∈ q.vl :=
  (h.vl _).2 ⟨f, hf, s, rfl⟩

private theorem vert_idx {v : ℕ} (hv : v ∈ q.vl) : (QH.toPH pos q).vert (q.vl.idxOf v) = pos v := by
  show pos (q.vl.getD (q.vl.idxOf v) 0) = pos v
  have hlt := List.idxOf_lt_length_of_mem hv
  rw [List.getD_eq_getElem _ _ hlt, List.getElem_idxOf]

private theorem idx_inj {v w : ℕ} (hv : v ∈ q.vl) (hw : w ∈ q.vl) (e : q.vl.idxOf v = q.vl.idxOf w) : v = w := by
  have := List.getElem_idxOf (List.idxOf_lt_length_of_mem hv)
  rw [← this]
  simp only [e]
  exact List.getElem_idxOf (List.idxOf_lt_length_of_mem hw)

/-- A directed edge of the result. -/
private def ed (q : QH) (f : ℕ) (s : Fin 3) : ℕ × ℕ := (q.vl.idxOf (P q f (s + 1)), q.vl.idxOf (P q f (s + 2)))

private theorem edges_eq : meshEdges (faceIdx (QH.toPH pos q)) = q.fl.flatMap fun f => [ed q f 2, ed q f 0, ed q f 1] := by
  unfold meshEdges faceIdx QH.toPH
  rw [List.map_map, List.flatMap_map]
  rfl

private theorem mem_edges {e : ℕ × ℕ} : e ∈ meshEdges (faceIdx (QH.toPH pos q)) ↔ ∃ f ∈ q.fl, ∃ s, e = ed q f s := by
  rw [edges_eq, List.mem_flatMap]
  refine exists_congr fun f => and_congr_right fun _ => ?_
  simp only [List.mem_cons, List.not_mem_nil, or_false]
  constructor
  · rintro (h | h | h)
    · exact ⟨2, h⟩
    · exact ⟨0, h⟩
    · exact ⟨1, h⟩
  · rintro ⟨s, h⟩
    fin_cases s
    · exact Or.inr (Or.inl h)
    · exact Or.inr (Or.inr h)
    · exact Or.inl h

private theorem ed_inj (h : Hull τ pos N q) {f g : ℕ} (hf : f ∈ q.fl) (hg : g ∈ q.fl) {s t : Fin 3} (e : ed q f s = ed q g t) :
    f = g ∧ s = t := by
  unfold ed at e
  rw [Prod.mk.injEq] at e
  exact h.cx.uni f (List.mem_toFinset.2 hf) g (List.mem_toFinset.2 hg) s t (idx_inj (cvl h hf _) (cvl h hg _) e.1)
    (idx_inj (cvl h hf _) (cvl h hg _) e.2)

private theorem edges_nodup (h : Hull τ pos N q) : (meshEdges (faceIdx (QH.toPH pos q))).Nodup := by
  rw [edges_eq, List.nodup_flatMap]
  constructor
  · intro f hf
    have key : ∀ s t, s ≠ t → ed q f s ≠ ed q f t := fun s t hst e => hst (ed_inj h hf hf e).2
    simp [key 2 0 (by decide), key 2 1 (by decide), key 0 1 (by decide)]
  · refine List.Pairwise.imp_of_mem (R := fun a b => a ≠ b) ?_ h.nodup
    intro f g hf hg hfg e he he'
    have sel : ∀ k, e ∈ [ed q k 2, ed q k 0, ed q k 1] → ∃ s, e = ed q k s := by
      intro k hk
      simp only [List.mem_cons, List.not_mem_nil, or_false] at hk
      rcases hk with h | h | h <;> exact ⟨_, h⟩
    obtain ⟨s, e1⟩ := sel f he
    obtain ⟨t, e2⟩ := sel g he'
    exact hfg (ed_inj h hf hg (e1.symm.trans e2)).1

private theorem edges_closed (h : Hull τ pos N q) : Closed (faceIdx (QH.toPH pos q)) := by
  unfold Closed
  have hnd := edges_nodup h
  refine (List.perm_ext_iff_of_nodup (hnd.map Prod.swap_injective) hnd).2 fun e => ?_
  have key : ∀ e, e ∈ meshEdges (faceIdx (QH.toPH pos q)) → e.swap ∈ meshEdges (faceIdx (QH.toPH pos q)) := by
    intro e he
    obtain ⟨f, hf, s, rfl⟩ := mem_edges.1 he
    obtain ⟨g, hg, t, -, -, e1, e2, -⟩ := h.cx.adj f (List.mem_toFinset.2 hf) s
    refine mem_edges.2 ⟨g, List.mem_toFinset.1 hg, t, ?_⟩
    unfold ed
    rw [e1, e2]; rfl
  rw [List.mem_map]
  constructor
  · rintro ⟨e', he', rfl⟩; exact key e' he'
  · intro he; exact ⟨e.swap, key e he, by simp⟩

private theorem hull_le (h : Hull τ pos N q) {f : ℕ} (hf : f ∈ q.fl) {x : ℕ} (hx : x < N) : D pos (P q) f x ≤ 0 :=
  h.weak f hf x hx

private theorem corners_eq (h : Hull τ pos N q) :
    {v | ∃ f ∈ q.fl.toFinset, ∃ s, v = pos (P q f s)} = {v | ∃ i < (QH.toPH pos q).nv, v = (QH.toPH pos q).vert i} := by
  ext v
  constructor
  · rintro ⟨f, hf, s, rfl⟩
    have := cvl h (List.mem_toFinset.1 hf) s
    exact ⟨_, List.idxOf_lt_length_of_mem this, (vert_idx this).symm⟩
  · rintro ⟨i, hi, rfl⟩
    have hi' : i < q.vl.length := hi
    obtain ⟨f, hf, s, e⟩ := (h.vl q.vl[i]).1 (List.getElem_mem _)
    refine ⟨f, List.mem_toFinset.2 hf, s, ?_⟩
    show pos (q.vl.getD i 0) = _
    rw [List.getD_eq_getElem _ _ hi', e]

/-- The facets bound the hull. -/
private theorem halfspaces (h : Hull τ pos N q) (p : Vec3 ℝ) :
    InHull {v | ∃ i < (QH.toPH pos q).nv, v = (QH.toPH pos q).vert i} p ↔
      ∀ f ∈ q.fl, vol (pos (P q f 0)) (pos (P q f 1)) (pos (P q f 2)) p ≤ 0 := by
  constructor
  · intro hp f hf
    rw [← corners_eq h] at hp
    refine vol_hull_le ?_ hp
    rintro v ⟨g, hg, s, rfl⟩
    exact hull_le h hf (h.corner g (List.mem_toFinset.1 hg) s)
  · intro hp
    obtain ⟨K, hK⟩ := h.inner
    obtain ⟨f, hf⟩ := List.exists_mem_of_ne_nil _ h.ne
    rw [← corners_eq h]
    refine closed_hull_le pos ⟨f, List.mem_toFinset.2 hf⟩ ?_ h.cx.uni (fun f hf => hK f (List.mem_toFinset.1 hf))
      (fun f hf => hp f (List.mem_toFinset.1 hf))
    intro f hf s
    obtain ⟨g, hg, t, -, -, e1, e2, -⟩ := h.cx.adj f hf s
    exact ⟨g, hg, t, e1, e2⟩

end

/-! ## The theorems -/

section
variable {τ : ℝ} (hτ : 0 ≤ τ) {sort : (Vec3 ℝ → Vec3 ℝ → ℤ) → List (Vec3 ℝ) → List (Vec3 ℝ)} {d : Data (Vec3 ℝ)}
  (hg : Resolves τ d.toAddrList) (hn : ¬ Coplanar {p | p ∈ d.toAddrList})
include hτ hg hn

/-- Points that are not in a plane have a hull. -/
theorem C69_some : ∃ ph, convexHull3 τ sort d = some ph := by
  obtain ⟨q, e, -⟩ := hullState hτ sort hg hn
  exact ⟨_, e⟩

/-- The result is a closed triangle mesh on some of the points: the faces refer to vertices, the vertices are
points of the data, every vertex is a corner of a face, no directed edge occurs twice, and with each directed edge
its reverse occurs. When the tolerance is positive, or no point is repeated in the data, no vertex is repeated. -/
theorem C69_mesh {ph : PH ℝ} (e : convexHull3 τ sort d = some ph) :
    Valid ph ∧ (∀ i < ph.nv, ph.vert i ∈ d.toAddrList) ∧
    (0 < τ ∨ d.toAddrList.Nodup → ∀ i < ph.nv, ∀ j < ph.nv, ph.vert i = ph.vert j → i = j) ∧
    (∀ i < ph.nv, ∃ f ∈ ph.face, i = f.i0 ∨ i = f.i1 ∨ i = f.i2) ∧
    (meshEdges (faceIdx ph)).Nodup ∧ Closed (faceIdx ph) := by
  obtain ⟨q, e', h⟩ := hullState hτ sort hg hn
  obtain rfl := Option.some.inj (e.symm.trans e')
  have hvN : ∀ v ∈ q.vl, v < d.toAddrList.length := by
    intro v hv
    obtain ⟨f, hf, s, rfl⟩ := (h.vl v).1 hv
    exact h.corner f hf s
  refine ⟨?_, ?_, ?_, ?_, edges_nodup h, edges_closed h⟩
  · intro F hF
    obtain ⟨f, hf, rfl⟩ := List.mem_map.1 hF
    exact ⟨List.idxOf_lt_length_of_mem (cvl h hf 0), List.idxOf_lt_length_of_mem (cvl h hf 1),
      List.idxOf_lt_length_of_mem (cvl h hf 2)⟩
  · intro i hi
    have hi' : i < q.vl.length := hi
    show d.toAddrList.getD (q.vl.getD i 0) .zero ∈ _
    rw [List.getD_eq_getElem _ _ hi']
    exact getD_mem (hvN _ (List.getElem_mem _))
  · intro hcase i hi j hj hij
    have hi' : i < q.vl.length := hi
    have hj' : j < q.vl.length := hj
    have : d.toAddrList.getD (q.vl.getD i 0) .zero = d.toAddrList.getD (q.vl.getD j 0) .zero := hij
    rw [List.getD_eq_getElem _ _ hi', List.getD_eq_getElem _ _ hj'] at this
    exact (h.vlnd.getElem_inj_iff).1 (h.dist (hcase.imp_right fun hd a ha b hb e => getD_inj hd ha hb e) _
      (List.getElem_mem _) _ (List.getElem_mem _) this)
  · intro i hi
    have hi' : i < q.vl.length := hi
    obtain ⟨f, hf, s, es⟩ := (h.vl q.vl[i]).1 (List.getElem_mem _)
    refine ⟨_, List.mem_map.2 ⟨f, hf, rfl⟩, ?_⟩
    have ei : q.vl.idxOf (P q f s) = i := by rw [es]; exact h.vlnd.idxOf_getElem i hi'
    fin_cases s
    · exact Or.inl ei.symm
    · exact Or.inr (Or.inl ei.symm)
    · exact Or.inr (Or.inr ei.symm)

/-- The normal vector of each face is the unit normal vector of the corners in their order, and it points outwards:
every point of the data is either in the plane of the face or beneath it by more than the tolerance. -/
theorem C69_faces {ph : PH ℝ} (e : convexHull3 τ sort d = some ph) :
    UnitNormals ph ∧ ∀ f ∈ ph.face, f.norm = unitNormal (ph.vert f.i0) (ph.vert f.i1) (ph.vert f.i2) ∧
      ∀ p ∈ d.toAddrList, height ⟨ph.vert f.i0, f.norm⟩ p = 0 ∨ height ⟨ph.vert f.i0, f.norm⟩ p < -τ := by
  obtain ⟨q, e', h⟩ := hullState hτ sort hg hn
  obtain rfl := Option.some.inj (e.symm.trans e')
  have key : ∀ f ∈ q.fl, (q.fac f).n = unitNormal (d.toAddrList.getD (P q f 0) .zero) (d.toAddrList.getD (P q f 1) .zero)
      (d.toAddrList.getD (P q f 2) .zero) := fun f hf => h.normal f hf
  obtain ⟨K, hK⟩ := h.inner
  have gp := res_of hτ hg
  constructor
  · intro F hF
    obtain ⟨f, hf, rfl⟩ := List.mem_map.1 hF
    show (q.fac f).n.x ^ 2 + (q.fac f).n.y ^ 2 + (q.fac f).n.z ^ 2 = 1
    rw [key f hf]
    have hv := hK f hf
    unfold H vol at hv
    unfold unitNormal
    set v := triNormal (d.toAddrList.getD (P q f 0) .zero, d.toAddrList.getD (P q f 1) .zero,
      d.toAddrList.getD (P q f 2) .zero)
    have hpos : 0 < v.x ^ 2 + v.y ^ 2 + v.z ^ 2 := by
      by_contra hc
      have hx0 : v.x = 0 := by nlinarith [sq_nonneg v.x, sq_nonneg v.y, sq_nonneg v.z]
      have hy0 : v.y = 0 := by nlinarith [sq_nonneg v.x, sq_nonneg v.y, sq_nonneg v.z]
      have hz0 : v.z = 0 := by nlinarith [sq_nonneg v.x, sq_nonneg v.y, sq_nonneg v.z]
      rw [dot, hx0, hy0, hz0] at hv
      simp at hv
    unfold unitV
    simp only [div_pow, Real.sq_sqrt hpos.le]
    field_simp
  · intro F hF
    obtain ⟨f, hf, rfl⟩ := List.mem_map.1 hF
    dsimp only
    have v0 : (QH.toPH (fun i => d.toAddrList.getD i .zero) q).vert (q.vl.idxOf ((q.fac f).p 0)) =
        d.toAddrList.getD (P q f 0) .zero := vert_idx (pos := fun i => d.toAddrList.getD i .zero) (cvl h hf 0)
    have v1 : (QH.toPH (fun i => d.toAddrList.getD i .zero) q).vert (q.vl.idxOf ((q.fac f).p 1)) =
        d.toAddrList.getD (P q f 1) .zero := vert_idx (pos := fun i => d.toAddrList.getD i .zero) (cvl h hf 1)
    have v2 : (QH.toPH (fun i => d.toAddrList.getD i .zero) q).vert (q.vl.idxOf ((q.fac f).p 2)) =
        d.toAddrList.getD (P q f 2) .zero := vert_idx (pos := fun i => d.toAddrList.getD i .zero) (cvl h hf 2)
    rw [v0, v1, v2]
    refine ⟨key f hf, fun p hp => ?_⟩
    obtain ⟨x, hx, rfl⟩ := mem_getD hp
    have hv := h.weak f hf x hx
    have hp0 : triNormal (d.toAddrList.getD (P q f 0) .zero, d.toAddrList.getD (P q f 1) .zero,
      d.toAddrList.getD (P q f 2) .zero) ≠ .zero := proper_of_vol (x := K) (hK f hf).ne
    have ho := gp.off _ (h.corner f hf 0) _ (h.corner f hf 1) _ (h.corner f hf 2) x hx hp0
    have hle : ¬ 0 < dot (unitNormal (d.toAddrList.getD (P q f 0) .zero) (d.toAddrList.getD (P q f 1) .zero)
        (d.toAddrList.getD (P q f 2) .zero)) ((d.toAddrList.getD x .zero).sub (d.toAddrList.getD (P q f 0) .zero)) := by
      rw [height_pos]; exact not_lt.2 hv
    rw [key f hf, ← dot_unitN]
    rcases lt_or_ge (dot (unitNormal (d.toAddrList.getD (P q f 0) .zero) (d.toAddrList.getD (P q f 1) .zero)
        (d.toAddrList.getD (P q f 2) .zero)) ((d.toAddrList.getD x .zero).sub (d.toAddrList.getD (P q f 0) .zero))) (-τ) with hlt | hge
    · exact Or.inr hlt
    · left
      have h0 := ho (abs_le.2 ⟨hge, (not_lt.1 hle).trans hτ⟩)
      unfold unitNormal
      rw [dot_unit]
      unfold vol at h0
      rw [h0, zero_div]

/-- The vertices span the convex hull of the data, and the planes of the faces bound it: a point is in the hull just
in case it is beneath all of them. -/
theorem C69_hull {ph : PH ℝ} (e : convexHull3 τ sort d = some ph) (p : Vec3 ℝ) :
    (InHull {v | ∃ i < ph.nv, v = ph.vert i} p ↔ InHull {v | v ∈ d.toAddrList} p) ∧
    (InHull {v | v ∈ d.toAddrList} p ↔ ∀ f ∈ ph.face, height ⟨ph.vert f.i0, f.norm⟩ p ≤ 0) := by
  have hmesh := C69_mesh hτ hg hn e
  have hfaces := C69_faces hτ hg hn e
  obtain ⟨q, e', h⟩ := hullState hτ sort hg hn
  obtain rfl := Option.some.inj (e.symm.trans e')
  have hcov : ∀ v ∈ {v | v ∈ d.toAddrList}, InHull {v | ∃ i < (QH.toPH (fun i => d.toAddrList.getD i .zero) q).nv,
      v = (QH.toPH (fun i => d.toAddrList.getD i .zero) q).vert i} v := by
    intro v hv
    obtain ⟨x, hx, rfl⟩ := mem_getD hv
    exact (halfspaces h _).2 fun f hf => hull_le h hf hx
  have h1 : InHull {v | ∃ i < (QH.toPH (fun i => d.toAddrList.getD i .zero) q).nv,
      v = (QH.toPH (fun i => d.toAddrList.getD i .zero) q).vert i} p ↔ InHull {v | v ∈ d.toAddrList} p := by
    constructor
    · refine hull_mono ?_
      rintro v ⟨i, hi, rfl⟩
      exact hmesh.2.1 i hi
    · exact hull_hull hcov
  refine ⟨h1, ?_⟩
  rw [← h1, halfspaces h p]
  have hh : ∀ f ∈ q.fl, (vol (d.toAddrList.getD (P q f 0) .zero) (d.toAddrList.getD (P q f 1) .zero)
      (d.toAddrList.getD (P q f 2) .zero) p ≤ 0 ↔
      height ⟨(QH.toPH (fun i => d.toAddrList.getD i .zero) q).vert (q.vl.idxOf ((q.fac f).p 0)), (q.fac f).n⟩ p ≤ 0) := by
    intro f hf
    have v0 : (QH.toPH (fun i => d.toAddrList.getD i .zero) q).vert (q.vl.idxOf ((q.fac f).p 0)) =
        d.toAddrList.getD (P q f 0) .zero := vert_idx (pos := fun i => d.toAddrList.getD i .zero) (cvl h hf 0)
    have hn' : (q.fac f).n = unitNormal (d.toAddrList.getD (P q f 0) .zero) (d.toAddrList.getD (P q f 1) .zero)
      (d.toAddrList.getD (P q f 2) .zero) := h.normal f hf
    rw [v0, hn']
    have : height ⟨d.toAddrList.getD (P q f 0) .zero, unitNormal (d.toAddrList.getD (P q f 0) .zero)
          (d.toAddrList.getD (P q f 1) .zero) (d.toAddrList.getD (P q f 2) .zero)⟩ p =
          dot (unitNormal (d.toAddrList.getD (P q f 0) .zero) (d.toAddrList.getD (P q f 1) .zero)
          (d.toAddrList.getD (P q f 2) .zero)) (p.sub (d.toAddrList.getD (P q f 0) .zero)) := by
        simp only [height, dot, Vec3.sub]; ring
    rw [this, ← not_lt, ← not_lt, not_iff_not]
    exact height_pos.symm
  constructor
  · intro hp F hF
    obtain ⟨f, hf, rfl⟩ := List.mem_map.1 hF
    exact (hh f hf).1 (hp f hf)
  · intro hp f hf
    have hmem : (⟨q.vl.idxOf ((q.fac f).p 0), q.vl.idxOf ((q.fac f).p 1), q.vl.idxOf ((q.fac f).p 2), (q.fac f).n⟩ : Face ℝ) ∈
        (QH.toPH (fun i => d.toAddrList.getD i .zero) q).face := List.mem_map.2 ⟨f, hf, rfl⟩
    have := hp _ hmem
    dsimp only at this
    exact (hh f hf).2 this

/-- A data point outside of the convex hull of the others is a vertex. When the tolerance is positive, or the points
are different and no four of them lie in a plane, there are no other vertices. -/
theorem C69_vertices {ph : PH ℝ} (e : convexHull3 τ sort d = some ph) :
    (∀ v, Extreme {p | p ∈ d.toAddrList} v → ∃ i < ph.nv, v = ph.vert i) ∧
    (0 < τ ∨ d.toAddrList.Nodup ∧ NoFourCoplanar d.toAddrList →
      ∀ i < ph.nv, Extreme {p | p ∈ d.toAddrList} (ph.vert i)) := by
  have hmesh := C69_mesh hτ hg hn e
  have hhull := C69_hull hτ hg hn e
  constructor
  · rintro v ⟨hv, hne⟩
    by_contra hcon
    apply hne
    have h1 := (hhull v).1.2 (hull_self hv)
    refine hull_mono ?_ h1
    rintro p ⟨i, hi, rfl⟩
    exact ⟨hmesh.2.1 i hi, fun e => hcon ⟨i, hi, e.symm⟩⟩
  · intro hcase i hi
    refine ⟨hmesh.2.1 i hi, ?_⟩
    obtain ⟨q, e', h⟩ := hullState hτ sort hg hn
    obtain rfl := Option.some.inj (e.symm.trans e')
    have hi' : i < q.vl.length := hi
    obtain ⟨f, hf, s, es⟩ := (h.vl q.vl[i]).1 (List.getElem_mem _)
    have hv : (QH.toPH (fun i => d.toAddrList.getD i .zero) q).vert i = d.toAddrList.getD (P q f s) .zero := by
      show d.toAddrList.getD (q.vl.getD i 0) .zero = _
      rw [List.getD_eq_getElem _ _ hi', es]
    rw [hv]
    set pos : ℕ → Vec3 ℝ := fun i => d.toAddrList.getD i .zero with hpos
    rcases hcase with ht | ⟨hdn, hno⟩
    · obtain ⟨w, hw⟩ := h.ext ht (P q f s) ((h.vl _).2 ⟨f, hf, s, rfl⟩)
      intro hin
      obtain ⟨n, L, p, hp, hL, hs, hsum⟩ := hin
      have hlt : ∀ i, dot w (p i) < dot w (pos (P q f s)) := by
        intro i
        obtain ⟨hm, hne⟩ := hp i
        obtain ⟨x, hx, ex⟩ := mem_getD hm
        have hne' : d.toAddrList.getD x .zero ≠ d.toAddrList.getD (P q f s) .zero := by rw [ex]; exact hne
        have := hw x hx hne'
        rw [← ex]; exact this
      have e1 : dot w (pos (P q f s)) = ∑ i, L i * dot w (p i) := by
        show dot w (d.toAddrList.getD (P q f s) .zero) = _
        rw [hsum]; simp only [dot, Finset.mul_sum, ← Finset.sum_add_distrib]
        exact Finset.sum_congr rfl fun i _ => by ring
      have e2 : dot w (pos (P q f s)) = ∑ i, L i * dot w (pos (P q f s)) := by rw [← Finset.sum_mul, hs, one_mul]
      have hall : ∀ i ∈ Finset.univ, L i = 0 := by
        intro i _
        by_contra hLi
        have hLp : 0 < L i := lt_of_le_of_ne (hL i) (Ne.symm hLi)
        have : ∑ i, L i * dot w (p i) < ∑ i, L i * dot w (pos (P q f s)) :=
          Finset.sum_lt_sum (fun j _ => mul_le_mul_of_nonneg_left (hlt j).le (hL j))
            ⟨i, Finset.mem_univ i, mul_lt_mul_of_pos_left (hlt i) hLp⟩
        linarith
      rw [Finset.sum_eq_zero hall] at hs
      exact zero_ne_one hs
    have hfF := List.mem_toFinset.2 hf
    have pinj : ∀ a < d.toAddrList.length, ∀ b < d.toAddrList.length, pos a = pos b → a = b :=
      fun a ha b hb e => getD_inj hdn ha hb e
    have conv : ∀ f ∈ q.fl, ∀ x < d.toAddrList.length, (∀ s, P q f s ≠ x) → D pos (P q) f x < 0 := by
      intro f hf x hx hne
      refine lt_of_le_of_ne (h.weak f hf x hx) fun h0 => ?_
      have hi := h.cx.inj f (List.mem_toFinset.2 hf)
      have c := h.corner f hf
      refine hno _ (getD_mem (c 0)) _ (getD_mem (c 1)) _ (getD_mem (c 2)) _ (getD_mem hx) (fun e => ?_) (fun e => ?_)
        (fun e => hne 0 (pinj _ (c 0) _ hx e)) (fun e => ?_) (fun e => hne 1 (pinj _ (c 1) _ hx e))
        (fun e => hne 2 (pinj _ (c 2) _ hx e)) (by rw [det_vol]; exact h0)
      · exact absurd (hi (pinj _ (c 0) _ (c 1) e)) (by decide)
      · exact absurd (hi (pinj _ (c 0) _ (c 2) e)) (by decide)
      · exact absurd (hi (pinj _ (c 1) _ (c 2) e)) (by decide)
    obtain ⟨g, hgF, t, -, -, g1, g2, g3⟩ := h.cx.adj f hfF (s + 1)
    obtain ⟨k, hkF, u, -, -, k1, k2, k3⟩ := h.cx.adj f hfF (s + 2)
    rw [f12] at g1
    rw [f11] at g2
    rw [f22] at k1
    rw [f21] at k2
    have hgl := List.mem_toFinset.1 hgF
    have hkl := List.mem_toFinset.1 hkF
    -- the sum of the three functions vanishes at the vertex and is negative at all other points
    have hzero : ∀ f ∈ q.fl, ∀ s, D pos (P q) f (P q f s) = 0 := by
      intro f _ s; rw [← D_rot pos (P q) f _ s]; exact vol_self1 _ _ _
    have z0 := hzero f hf s
    have z1 : D pos (P q) g (P q f s) = 0 := by rw [← g1]; exact hzero g hgl _
    have z2 : D pos (P q) k (P q f s) = 0 := by rw [← k2]; exact hzero k hkl _
    have hneg : ∀ x < d.toAddrList.length, x ≠ P q f s → D pos (P q) f x + D pos (P q) g x + D pos (P q) k x < 0 := by
      intro x hx hne
      have a0 := hull_le h hf hx
      have a1 := hull_le h hgl hx
      have a2 := hull_le h hkl hx
      by_contra hc
      have z : ∀ f ∈ q.fl, D pos (P q) f x = 0 → ∃ s, P q f s = x := by
        intro f hf h0
        by_contra hne
        push Not at hne
        exact absurd h0 (conv f hf x hx hne).ne
      obtain ⟨s0, b0⟩ := z f hf (by linarith)
      obtain ⟨s1, b1⟩ := z g hgl (by linarith)
      obtain ⟨s2, b2⟩ := z k hkl (by linarith)
      have inf := h.cx.inj f hfF
      have ing := h.cx.inj g hgF
      have ink := h.cx.inj k hkF
      -- `x` is one of the other two corners of `f`
      rcases fin3_cases s s0 with r | r | r
      · exact hne (by rw [← b0, r])
      · -- not a corner of `g`
        rw [r] at b0
        rcases fin3_cases t s1 with r1 | r1 | r1
        · rw [r1] at b1; exact g3 (b1.trans b0.symm)
        · rw [r1] at b1; exact hne (b1.symm.trans g1)
        · rw [r1, g2] at b1
          exact ne12 s (inf (b0.trans b1.symm))
      · rw [r] at b0
        rcases fin3_cases u s2 with r1 | r1 | r1
        · rw [r1] at b2; exact k3 (b2.trans b0.symm)
        · rw [r1, k1] at b2
          exact ne12 s (inf (b2.trans b0.symm))
        · rw [r1] at b2; exact hne (b2.symm.trans k2)
    rintro ⟨n, L, p, hp, hL, hs, hsum⟩
    have lin : ∀ a b c : Vec3 ℝ, vol a b c ⟨∑ i, L i * (p i).x, ∑ i, L i * (p i).y, ∑ i, L i * (p i).z⟩ =
        ∑ i, L i * vol a b c (p i) := by
      intro a b c
      have e1 : ∀ (α β γ δ : ℝ), ∑ i, L i * (α * (p i).x + β * (p i).y + γ * (p i).z + δ) =
          α * (∑ i, L i * (p i).x) + β * (∑ i, L i * (p i).y) + γ * (∑ i, L i * (p i).z) + δ := by
        intro α β γ δ
        rw [Finset.mul_sum, Finset.mul_sum, Finset.mul_sum, ← Finset.sum_add_distrib, ← Finset.sum_add_distrib]
        have : δ = ∑ i, δ * L i := by rw [← Finset.mul_sum, hs, mul_one]
        conv_rhs => rw [this]
        rw [← Finset.sum_add_distrib]
        exact Finset.sum_congr rfl fun i _ => by ring
      have e2 : ∀ v : Vec3 ℝ, vol a b c v = (triNormal (a, b, c)).x * v.x + (triNormal (a, b, c)).y * v.y +
          (triNormal (a, b, c)).z * v.z + -(dot (triNormal (a, b, c)) a) := by
        intro v; simp only [vol, dot, Vec3.sub]; ring
      simp only [e2]
      rw [e1]
    have htot : ∑ i, L i * (vol (pos (P q f 0)) (pos (P q f 1)) (pos (P q f 2)) (p i) +
        vol (pos (P q g 0)) (pos (P q g 1)) (pos (P q g 2)) (p i) +
        vol (pos (P q k 0)) (pos (P q k 1)) (pos (P q k 2)) (p i)) = 0 := by
      simp only [mul_add, Finset.sum_add_distrib, ← lin]
      rw [← hsum]
      have z0' : vol (pos (P q f 0)) (pos (P q f 1)) (pos (P q f 2)) (d.toAddrList.getD (P q f s) .zero) = 0 := z0
      have z1' : vol (pos (P q g 0)) (pos (P q g 1)) (pos (P q g 2)) (d.toAddrList.getD (P q f s) .zero) = 0 := z1
      have z2' : vol (pos (P q k 0)) (pos (P q k 1)) (pos (P q k 2)) (d.toAddrList.getD (P q f s) .zero) = 0 := z2
      rw [z0', z1', z2']; ring
    have hterm : ∀ i, vol (pos (P q f 0)) (pos (P q f 1)) (pos (P q f 2)) (p i) +
        vol (pos (P q g 0)) (pos (P q g 1)) (pos (P q g 2)) (p i) +
        vol (pos (P q k 0)) (pos (P q k 1)) (pos (P q k 2)) (p i) < 0 := by
      intro i
      obtain ⟨hm, hne⟩ := hp i
      obtain ⟨x, hx, ex⟩ := mem_getD hm
      have := hneg x hx fun e => hne (by rw [← ex, e])
      rw [← ex]; exact this
    have hall : ∀ i ∈ Finset.univ, L i = 0 := by
      intro i _
      by_contra hLi
      have hLp : 0 < L i := lt_of_le_of_ne (hL i) (Ne.symm hLi)
      have : ∑ i, L i * (vol (pos (P q f 0)) (pos (P q f 1)) (pos (P q f 2)) (p i) +
        vol (pos (P q g 0)) (pos (P q g 1)) (pos (P q g 2)) (p i) +
        vol (pos (P q k 0)) (pos (P q k 1)) (pos (P q k 2)) (p i)) < 0 := by
        refine Finset.sum_neg' (fun j _ => mul_nonpos_of_nonneg_of_nonpos (hL j) (hterm j).le)
          ⟨i, Finset.mem_univ i, mul_neg_of_pos_of_neg hLp (hterm i)⟩
      linarith
    rw [Finset.sum_eq_zero hall] at hs
    exact zero_ne_one hs

/-- The faces make up the boundary of the hull: a point of the hull in the plane of a face is in some face. -/
theorem C69_surface {ph : PH ℝ} (e : convexHull3 τ sort d = some ph) (p : Vec3 ℝ) :
    (∃ f ∈ ph.face, p ∈ triangle (ph.vert f.i0) (ph.vert f.i1) (ph.vert f.i2)) ↔
      InHull {v | v ∈ d.toAddrList} p ∧ ∃ f ∈ ph.face, height ⟨ph.vert f.i0, f.norm⟩ p = 0 := by
  have hhull := C69_hull hτ hg hn e
  obtain ⟨q, e', h⟩ := hullState hτ sort hg hn
  obtain rfl := Option.some.inj (e.symm.trans e')
  set pos : ℕ → Vec3 ℝ := fun i => d.toAddrList.getD i .zero with hpos
  have hvert : ∀ f ∈ q.fl, ∀ s, (QH.toPH pos q).vert (q.vl.idxOf (P q f s)) = pos (P q f s) :=
    fun f hf s => vert_idx (pos := pos) (cvl h hf s)
  obtain ⟨K, hK⟩ := h.inner
  have hz : ∀ f ∈ q.fl, (height ⟨pos (P q f 0), (q.fac f).n⟩ p = 0 ↔ H pos (P q) f p = 0) := by
    intro f hf
    have hn' : (q.fac f).n = unitNormal (pos (P q f 0)) (pos (P q f 1)) (pos (P q f 2)) := h.normal f hf
    rw [hn', ← dot_unitN]
    unfold unitNormal H vol
    rw [dot_unit, div_eq_zero_iff]
    refine ⟨fun hc => hc.resolve_right fun hr => ?_, Or.inl⟩
    have hle := Real.sqrt_eq_zero'.1 hr
    have hv := hK f hf
    unfold H vol at hv
    set v := triNormal (pos (P q f 0), pos (P q f 1), pos (P q f 2))
    have hx0 : v.x = 0 := by nlinarith [sq_nonneg v.x, sq_nonneg v.y, sq_nonneg v.z]
    have hy0 : v.y = 0 := by nlinarith [sq_nonneg v.x, sq_nonneg v.y, sq_nonneg v.z]
    have hz0 : v.z = 0 := by nlinarith [sq_nonneg v.x, sq_nonneg v.y, sq_nonneg v.z]
    rw [dot, hx0, hy0, hz0] at hv
    simp at hv
  have hin : InHull {v | v ∈ d.toAddrList} p ↔ ∀ f ∈ q.fl, H pos (P q) f p ≤ 0 := by
    rw [← (hhull p).1]; exact halfspaces h p
  rw [hin]
  constructor
  · rintro ⟨F, hF, hp⟩
    obtain ⟨f, hf, rfl⟩ := List.mem_map.1 hF
    change p ∈ triangle ((QH.toPH pos q).vert (q.vl.idxOf (P q f 0))) ((QH.toPH pos q).vert (q.vl.idxOf (P q f 1)))
      ((QH.toPH pos q).vert (q.vl.idxOf (P q f 2))) at hp
    rw [hvert f hf, hvert f hf, hvert f hf] at hp
    refine ⟨fun g hg' => vol_tri_le (h.weak g hg' _ (h.corner f hf 0)) (h.weak g hg' _ (h.corner f hf 1))
      (h.weak g hg' _ (h.corner f hf 2)) hp, _, hF, ?_⟩
    show height ⟨(QH.toPH pos q).vert (q.vl.idxOf (P q f 0)), (q.fac f).n⟩ p = 0
    rw [hvert f hf, hz f hf]
    exact vol_tri_zero hp
  · rintro ⟨h1, F, hF, h0⟩
    obtain ⟨f, hf, rfl⟩ := List.mem_map.1 hF
    change height ⟨(QH.toPH pos q).vert (q.vl.idxOf (P q f 0)), (q.fac f).n⟩ p = 0 at h0
    rw [hvert f hf, hz f hf] at h0
    obtain ⟨g, hg', hm⟩ := h.cover p h1 ⟨f, hf, h0⟩
    refine ⟨_, List.mem_map.2 ⟨g, hg', rfl⟩, ?_⟩
    show p ∈ triangle ((QH.toPH pos q).vert (q.vl.idxOf (P q g 0))) ((QH.toPH pos q).vert (q.vl.idxOf (P q g 1)))
      ((QH.toPH pos q).vert (q.vl.idxOf (P q g 2)))
    rw [hvert g hg', hvert g hg', hvert g hg']
    exact hm

end

/-! ## Resolution -/

private theorem near_zero {u v : Vec3 ℝ} : Near 0 u v ↔ u = v := by
  unfold Near
  simp only [abs_nonpos_iff, sub_eq_zero, Vec3.ext_iff]

private theorem unitV_cross_zero {u v : Vec3 ℝ} (hu : u ≠ .zero) (hv : v ≠ .zero)
    (h : crossP (unitV u) (unitV v) = .zero) : crossP u v = .zero := by
  have sq : ∀ w : Vec3 ℝ, w ≠ .zero → Real.sqrt (w.x ^ 2 + w.y ^ 2 + w.z ^ 2) ≠ 0 := by
    intro w hw e
    have h1 : w.x ^ 2 + w.y ^ 2 + w.z ^ 2 ≤ 0 := Real.sqrt_eq_zero'.1 e
    apply hw
    ext
    · show w.x = 0; nlinarith [sq_nonneg w.x, sq_nonneg w.y, sq_nonneg w.z]
    · show w.y = 0; nlinarith [sq_nonneg w.x, sq_nonneg w.y, sq_nonneg w.z]
    · show w.z = 0; nlinarith [sq_nonneg w.x, sq_nonneg w.y, sq_nonneg w.z]
  have a := sq u hu
  have b := sq v hv
  set ra := Real.sqrt (u.x ^ 2 + u.y ^ 2 + u.z ^ 2) with hra
  set rb := Real.sqrt (v.x ^ 2 + v.y ^ 2 + v.z ^ 2) with hrb
  simp only [crossP, unitV, ← hra, ← hrb, Vec3.zero, Vec3.mk.injEq] at h ⊢
  have e : ∀ x y z w : ℝ, x / ra * (y / rb) - z / ra * (w / rb) = 0 → x * y - z * w = 0 := by
    intro x y z w hh
    have : (x * y - z * w) / (ra * rb) = 0 := by rw [← hh]; field_simp
    rcases div_eq_zero_iff.1 this with h1 | h1
    · exact h1
    · exact absurd h1 (mul_ne_zero a b)
  exact ⟨e _ _ _ _ h.1, e _ _ _ _ h.2.1, e _ _ _ _ h.2.2⟩

/-- At tolerance zero every list of points is resolved. -/
theorem C69_exact (l : List (Vec3 ℝ)) : Resolves 0 l := by
  have tri : ∀ a b c : Vec3 ℝ, crossP (unitV (b.sub a)) (unitV (c.sub a)) = .zero → triNormal (a, b, c) = .zero := by
    intro a b c e
    have eq : ∀ u v : Vec3 ℝ, u.sub v = .zero → u = v := by
      intro u v h
      simp only [Vec3.sub, Vec3.zero, Vec3.mk.injEq, sub_eq_zero] at h
      exact Vec3.ext h.1 h.2.1 h.2.2
    by_cases h1 : b.sub a = .zero
    · rw [eq _ _ h1]
      simp only [triNormal, Vec3.zero]
      ext <;> simp only <;> ring
    · by_cases h2 : c.sub a = .zero
      · rw [eq _ _ h2]
        simp only [triNormal, Vec3.zero]
        ext <;> simp only <;> ring
      · exact unitV_cross_zero h1 h2 e
  refine ⟨by norm_num, fun a _ b _ h => near_zero.1 h, fun a _ b _ c _ h => near_zero.1 h, ?_, ?_, ?_, ?_⟩
  · intro a _ b _ c _ h
    exact tri a b c (near_zero.1 h)
  · intro a _ b _ c _ d _ hn h
    have h0 := abs_nonpos_iff.1 h
    unfold unitNormal at h0
    rw [dot_unit] at h0
    rw [det_vol]
    refine (div_eq_zero_iff.1 h0).resolve_right fun hr => ?_
    have hle := Real.sqrt_eq_zero'.1 hr
    apply hn
    set v := triNormal (a, b, c)
    ext
    · show v.x = 0; nlinarith [sq_nonneg v.x, sq_nonneg v.y, sq_nonneg v.z]
    · show v.y = 0; nlinarith [sq_nonneg v.x, sq_nonneg v.y, sq_nonneg v.z]
    · show v.z = 0; nlinarith [sq_nonneg v.x, sq_nonneg v.y, sq_nonneg v.z]
  · intro a _ b _ c _ d _ hn hn' h
    have hcr : crossP (unitNormal a b c) (unitNormal b a d) = .zero := by
      rcases h with h | h
      · rw [near_zero.1 h]
        simp only [crossP, Vec3.zero]
        ext <;> simp only <;> ring
      · exact near_zero.1 h
    have e2 := unitV_cross_zero hn hn' hcr
    rw [det_vol]
    have ex : (crossP (triNormal (a, b, c)) (triNormal (b, a, d))).x = - vol a b c d * (b.x - a.x) := by
      simp only [crossP, triNormal, vol_eq]; ring
    have ey : (crossP (triNormal (a, b, c)) (triNormal (b, a, d))).y = - vol a b c d * (b.y - a.y) := by
      simp only [crossP, triNormal, vol_eq]; ring
    have ez : (crossP (triNormal (a, b, c)) (triNormal (b, a, d))).z = - vol a b c d * (b.z - a.z) := by
      simp only [crossP, triNormal, vol_eq]; ring
    rw [e2] at ex ey ez
    by_contra hv
    have k : ∀ x : ℝ, (0:ℝ) = - vol a b c d * x → x = 0 := by
      intro x hx
      rcases mul_eq_zero.1 hx.symm with h | h
      · exact absurd (neg_eq_zero.1 h) hv
      · exact h
    have hab : b = a := Vec3.ext (sub_eq_zero.1 (k _ ex)) (sub_eq_zero.1 (k _ ey)) (sub_eq_zero.1 (k _ ez))
    apply hn
    rw [hab]
    simp only [triNormal, Vec3.zero]
    ext <;> simp only <;> ring
  · rintro a _ b _ c _ d _ _ _ ⟨p, -, h⟩
    exact absurd (Real.sqrt_nonneg _) (not_le.2 h)

/-- Every list of points is resolved by some positive tolerance, and by all smaller ones. -/
theorem C69_margin (l : List (Vec3 ℝ)) : ∃ τ₀ > 0, ∀ τ, 0 ≤ τ → τ ≤ τ₀ → Resolves τ l := by
  have h := C69_exact l
  have far : ∀ u v : Vec3 ℝ, ¬ Near 0 u v → ∀ᶠ τ in nhds (0:ℝ), ¬ Near τ u v := by
    intro u v huv
    unfold Near at huv ⊢
    rw [not_and_or, not_and_or, not_le, not_le, not_le] at huv
    rcases huv with k | k | k
    · exact (eventually_lt_nhds k).mono fun τ ht hc => absurd hc.1 (not_le.2 ht)
    · exact (eventually_lt_nhds k).mono fun τ ht hc => absurd hc.2.1 (not_le.2 ht)
    · exact (eventually_lt_nhds k).mono fun τ ht hc => absurd hc.2.2 (not_le.2 ht)
  have all : ∀ (p : Vec3 ℝ → ℝ → Prop), (∀ a ∈ l, ∀ᶠ τ in nhds (0:ℝ), p a τ) → ∀ᶠ τ in nhds (0:ℝ), ∀ a ∈ l, p a τ := by
    intro p hp
    exact (Filter.eventually_all_finite (l.finite_toSet)).2 hp
  have imp : ∀ (c : Prop) (p : ℝ → Prop), (c → ∀ᶠ τ in nhds (0:ℝ), p τ) → ∀ᶠ τ in nhds (0:ℝ), c → p τ := by
    intro c p hp
    by_cases hc : c
    · exact (hp hc).mono fun _ h _ => h
    · exact Filter.Eventually.of_forall fun _ h => absurd h hc
  have far' : ∀ (u v : Vec3 ℝ) (c : Prop), (Near 0 u v → c) → ∀ᶠ τ in nhds (0:ℝ), Near τ u v → c := by
    intro u v c huv
    by_cases hc : c
    · exact Filter.Eventually.of_forall fun _ _ => hc
    · exact (far u v fun hn => hc (huv hn)).mono fun τ ht hn => absurd hn ht
  have ev : ∀ᶠ τ in nhds (0:ℝ), Resolves τ l := by
    have h0 : ∀ᶠ τ in nhds (0:ℝ), τ < 1 / 4 := eventually_lt_nhds (by norm_num)
    have h1 : ∀ᶠ τ in nhds (0:ℝ), ∀ a ∈ l, ∀ b ∈ l, Near τ a b → a = b :=
      all _ fun a ha => all _ fun b hb => far' _ _ _ (h.same a ha b hb)
    have h2 : ∀ᶠ τ in nhds (0:ℝ), ∀ a ∈ l, ∀ b ∈ l, ∀ c ∈ l, Near τ (triNormal (a, b, c)) .zero →
        triNormal (a, b, c) = .zero :=
      all _ fun a ha => all _ fun b hb => all _ fun c hc => far' _ _ _ (h.big a ha b hb c hc)
    have h3 : ∀ᶠ τ in nhds (0:ℝ), ∀ a ∈ l, ∀ b ∈ l, ∀ c ∈ l,
        Near τ (crossP (unitV (b.sub a)) (unitV (c.sub a))) .zero → triNormal (a, b, c) = .zero :=
      all _ fun a ha => all _ fun b hb => all _ fun c hc => far' _ _ _ (h.bend a ha b hb c hc)
    have h4 : ∀ᶠ τ in nhds (0:ℝ), ∀ a ∈ l, ∀ b ∈ l, ∀ c ∈ l, ∀ d ∈ l, triNormal (a, b, c) ≠ .zero →
        |dot (unitNormal a b c) (d.sub a)| ≤ τ → det3 (b.sub a) (c.sub a) (d.sub a) = 0 := by
      refine all _ fun a ha => all _ fun b hb => all _ fun c hc => all _ fun d hd => imp _ _ fun hn => ?_
      by_cases h0 : det3 (b.sub a) (c.sub a) (d.sub a) = 0
      · exact Filter.Eventually.of_forall fun _ _ => h0
      · have : 0 < |dot (unitNormal a b c) (d.sub a)| := by
          by_contra hc'
          exact h0 (h.off a ha b hb c hc d hd hn (not_lt.1 hc'))
        exact (eventually_lt_nhds this).mono fun τ ht hle => absurd hle (not_le.2 ht)
    have h5 : ∀ᶠ τ in nhds (0:ℝ), ∀ a ∈ l, ∀ b ∈ l, ∀ c ∈ l, ∀ d ∈ l, triNormal (a, b, c) ≠ .zero →
        triNormal (b, a, d) ≠ .zero → Near τ (unitNormal a b c) (unitNormal b a d) ∨
          Near τ (crossP (unitNormal a b c) (unitNormal b a d)) .zero → det3 (b.sub a) (c.sub a) (d.sub a) = 0 := by
      refine all _ fun a ha => all _ fun b hb => all _ fun c hc => all _ fun d hd => imp _ _ fun hn => imp _ _ fun hn' => ?_
      filter_upwards [far' _ _ _ fun k => h.fold a ha b hb c hc d hd hn hn' (Or.inl k),
        far' _ _ _ fun k => h.fold a ha b hb c hc d hd hn hn' (Or.inr k)] with τ k1 k2 k
      exact k.elim k1 k2
    have h6 : ∀ᶠ τ in nhds (0:ℝ), ∀ a ∈ l, ∀ b ∈ l, ∀ c ∈ l, ∀ d ∈ l, triNormal (a, b, c) ≠ .zero →
        det3 (b.sub a) (c.sub a) (d.sub a) = 0 → (∃ p ∈ triangle a b c, Spec.ed d p < τ) → d ∈ triangle a b c := by
      refine all _ fun a ha => all _ fun b hb => all _ fun c hc => all _ fun d hd => imp _ _ fun hn => imp _ _ fun _ => ?_
      by_cases hm : d ∈ triangle a b c
      · exact Filter.Eventually.of_forall fun _ _ => hm
      · obtain ⟨r, -, ⟨hr, hmin⟩, -⟩ := C20_closest_partial 0 le_rfl (by norm_num) a b c d
          (Or.inl (by rw [outerProd_eq, isTol_iff_near, near_zero]; exact hn))
        have hpos : 0 < Spec.ed d r.2 := by
          refine lt_of_le_of_ne (Real.sqrt_nonneg _) fun e0 => hm ?_
          have : d = r.2 := by
            have h0 := Real.sqrt_eq_zero'.1 e0.symm
            unfold sqd at h0
            ext
            · nlinarith [sq_nonneg (d.x - r.2.x), sq_nonneg (d.y - r.2.y), sq_nonneg (d.z - r.2.z)]
            · nlinarith [sq_nonneg (d.x - r.2.x), sq_nonneg (d.y - r.2.y), sq_nonneg (d.z - r.2.z)]
            · nlinarith [sq_nonneg (d.x - r.2.x), sq_nonneg (d.y - r.2.y), sq_nonneg (d.z - r.2.z)]
          rw [this]; exact hr
        refine (eventually_lt_nhds hpos).mono ?_
        rintro τ ht ⟨p, hp, hlt⟩
        exact absurd (Real.sqrt_le_sqrt (hmin p hp)) (not_le.2 (hlt.trans ht))
    filter_upwards [h0, h1, h2, h3, h4, h5, h6] with τ k0 k1 k2 k3 k4 k5 k6
    exact ⟨k0.le, k1, k2, k3, k4, k5, k6⟩
  obtain ⟨ε, hε, hb⟩ := Metric.eventually_nhds_iff.1 ev
  refine ⟨ε / 2, by positivity, fun τ h0 h1 => hb ?_⟩
  rw [Real.dist_eq, sub_zero, abs_of_nonneg h0]
  linarith

/-- The points `(t, t², t³)` for any different numbers `t` are different, and no four of them lie in a plane. -/
theorem C69_moment (ts : List ℝ) (hts : ts.Nodup) :
    (ts.map fun t => (⟨t, t ^ 2, t ^ 3⟩ : Vec3 ℝ)).Nodup ∧ NoFourCoplanar (ts.map fun t => (⟨t, t ^ 2, t ^ 3⟩ : Vec3 ℝ)) := by
  refine ⟨hts.map fun a b h => by simpa using congrArg Vec3.x h, ?_⟩
  intro a ha b hb c hc d hd h1 h2 h3 h5 h6 h7
  obtain ⟨a, -, rfl⟩ := List.mem_map.1 ha
  obtain ⟨b, -, rfl⟩ := List.mem_map.1 hb
  obtain ⟨c, -, rfl⟩ := List.mem_map.1 hc
  obtain ⟨d, -, rfl⟩ := List.mem_map.1 hd
  have ne : ∀ s t : ℝ, (⟨s, s ^ 2, s ^ 3⟩ : Vec3 ℝ) ≠ ⟨t, t ^ 2, t ^ 3⟩ → t - s ≠ 0 := by
    intro s t h e; exact h (by rw [sub_eq_zero.1 e])
  have : det3 (Vec3.sub (⟨b, b ^ 2, b ^ 3⟩ : Vec3 ℝ) ⟨a, a ^ 2, a ^ 3⟩) (Vec3.sub ⟨c, c ^ 2, c ^ 3⟩ ⟨a, a ^ 2, a ^ 3⟩)
      (Vec3.sub ⟨d, d ^ 2, d ^ 3⟩ ⟨a, a ^ 2, a ^ 3⟩) = (b - a) * (c - a) * (d - a) * (c - b) * (d - b) * (d - c) := by
    simp only [det3, Vec3.sub]; ring
  rw [this]
  exact mul_ne_zero (mul_ne_zero (mul_ne_zero (mul_ne_zero (mul_ne_zero (ne _ _ h1) (ne _ _ h2)) (ne _ _ h3))
    (ne _ _ h5)) (ne _ _ h6)) (ne _ _ h7)

/-- The corners of the unit cube, four in each side, the first of them repeated, and the middle of a side: data as
the theorems are about, at tolerance zero and at a positive one. -/
example : ∃ (τ : ℝ) (d : Data (Vec3 ℝ)), 0 < τ ∧ Resolves τ d.toAddrList ∧ Resolves 0 d.toAddrList ∧
    ¬ Coplanar {p | p ∈ d.toAddrList} ∧ ¬ NoFourCoplanar d.toAddrList ∧ ¬ d.toAddrList.Nodup := by
  set l : List (Vec3 ℝ) := [⟨0, 0, 0⟩, ⟨0, 0, 0⟩, ⟨1, 0, 0⟩, ⟨0, 1, 0⟩, ⟨1, 1, 0⟩, ⟨0, 0, 1⟩, ⟨1, 0, 1⟩, ⟨0, 1, 1⟩, ⟨1, 1, 1⟩,
    ⟨1 / 2, 1 / 2, 0⟩] with hl
  have e : (Data.assignArray l).toAddrList = l := by
    have hwf : (Data.assignArray l).WF := ⟨le_rfl, Nat.zero_le _⟩
    have : (Data.assignArray l).toAddrList = (Data.assignArray l).contents := by
      unfold Data.toAddrList
      rw [(hwf.forEach _ _).1]
      simpa using Data.foldl_append (fun v : Vec3 ℝ => v) (Data.assignArray l).contents []
    rw [this]
    simp [Data.assignArray, Data.contents]
  obtain ⟨τ, hτ, h⟩ := C69_margin l
  refine ⟨τ, Data.assignArray l, hτ, by rw [e]; exact h τ hτ.le le_rfl, C69_exact _, ?_, ?_, ?_⟩
  · rw [e]
    rintro ⟨n, hn, c, hc⟩
    have h0 := hc ⟨0, 0, 0⟩ (by simp [hl])
    have h1 := hc ⟨1, 0, 0⟩ (by simp [hl])
    have h2 := hc ⟨0, 1, 0⟩ (by simp [hl])
    have h3 := hc ⟨0, 0, 1⟩ (by simp [hl])
    simp only [dot] at h0 h1 h2 h3
    apply hn
    ext
    · show n.x = 0; linarith
    · show n.y = 0; linarith
    · show n.z = 0; linarith
  · rw [e]
    intro hno
    refine hno ⟨0, 0, 0⟩ (by simp [hl]) ⟨1, 0, 0⟩ (by simp [hl]) ⟨0, 1, 0⟩ (by simp [hl]) ⟨1, 1, 0⟩ (by simp [hl])
      (by simp) (by simp) (by simp) (by simp) (by simp) (by simp) ?_
    simp [det3, Vec3.sub]
  · rw [e, hl]; simp

/-! ## Data in a line or in a plane -/

section
variable {τ : ℝ} (hτ : 0 ≤ τ) (sort : (Vec3 ℝ → Vec3 ℝ → ℤ) → List (Vec3 ℝ) → List (Vec3 ℝ)) {d : Data (Vec3 ℝ)} (hg : Resolves τ d.toAddrList)
include hτ hg

/-- NULL is returned for points on a line. -/
theorem C69_line (hc : Collinear {p | p ∈ d.toAddrList}) : convexHull3 τ sort d = none := by
  rcases dimension hτ hg with ⟨k, hk, e, -⟩ | ⟨-, -, h⟩ | ⟨v0, v1, v2, v3, pl, e, F, -, h⟩
  · unfold convexHull3
    simp only [e]
  · exact absurd hc h
  · exact absurd hc h

/-- The hull of points in a plane, not all on a line, is the polygon made by the planar algorithm (C63). -/
theorem C69_flat (hc : Coplanar {p | p ∈ d.toAddrList}) (hl : ¬ Collinear {p | p ∈ d.toAddrList}) :
    convexHull3 τ sort d = Hull2D.hullPH τ sort d := by
  rcases dimension hτ hg with ⟨k, hk, e, h⟩ | ⟨e, -⟩ | ⟨v0, v1, v2, v3, pl, e, F, h, -⟩
  · exact absurd h hl
  · unfold convexHull3
    simp only [e]
  · exact absurd hc h

end

/-- At tolerance zero NULL is returned just for points on a line. -/
theorem C69_null (sort) (d : Data (Vec3 ℝ)) : convexHull3 0 sort d = none ↔ Collinear {p | p ∈ d.toAddrList} := by
  refine ⟨fun h => ?_, C69_line le_rfl sort (C69_exact _)⟩
  by_contra hl
  by_cases hc : Coplanar {p | p ∈ d.toAddrList}
  · rw [C69_flat le_rfl sort (C69_exact _) hc hl] at h
    unfold Hull2D.hullPH at h
    rw [Option.map_eq_none_iff, C63_degenerate sort d] at h
    exact hl h
  · obtain ⟨ph, e⟩ := C69_some le_rfl (sort := sort) (C69_exact _) hc
    rw [e] at h; cases h

/-- Points that are all equal up to the tolerance have no hull, wherever they are. -/
theorem C69_coarse (τ : ℝ) (sort) (d : Data (Vec3 ℝ)) (h : ∀ p ∈ d.toAddrList, ∀ q ∈ d.toAddrList, Near τ p q) :
    convexHull3 τ sort d = none := by
  unfold convexHull3
  dsimp only
  cases hr : List.range d.toAddrList.length with
  | nil => simp only [QH.simplexVert]
  | cons v0 l =>
    have hm : ∀ v ∈ v0 :: l, d.toAddrList.getD v .zero ∈ d.toAddrList := by
      intro v hv; rw [← hr, List.mem_range] at hv; exact getD_mem hv
    have key : ∀ l' : List ℕ, (∀ v ∈ l', d.toAddrList.getD v .zero ∈ d.toAddrList) →
        QH.second τ (fun i => d.toAddrList.getD i .zero) v0 l' = none := by
      intro l'
      induction l' with
      | nil => intro _; rfl
      | cons v l' ih =>
        intro hl'
        unfold QH.second
        rw [if_neg (not_not.2 ((isTol_sub_iff _ _ _).2 (h _ (hl' v List.mem_cons_self) _ (hm v0 List.mem_cons_self))))]
        exact ih fun w hw => hl' w (List.mem_cons_of_mem _ hw)
    simp only [QH.simplexVert, key l fun v hv => hm v (List.mem_cons_of_mem _ hv)]

/-- The corners of a tetrahedron at tolerance one. -/
example : ∃ d : Data (Vec3 ℝ), ¬ Coplanar {p | p ∈ d.toAddrList} ∧ ∀ sort, convexHull3 1 sort d = none := by
  set l : List (Vec3 ℝ) := [⟨0, 0, 0⟩, ⟨1, 0, 0⟩, ⟨0, 1, 0⟩, ⟨0, 0, 1⟩] with hl
  have e : (Data.assignArray l).toAddrList = l := by
    have hwf : (Data.assignArray l).WF := ⟨le_rfl, Nat.zero_le _⟩
    have : (Data.assignArray l).toAddrList = (Data.assignArray l).contents := by
      unfold Data.toAddrList
      rw [(hwf.forEach _ _).1]
      simpa using Data.foldl_append (fun v : Vec3 ℝ => v) (Data.assignArray l).contents []
    rw [this]
    simp [Data.assignArray, Data.contents]
  refine ⟨Data.assignArray l, ?_, fun sort => C69_coarse 1 sort _ ?_⟩
  · rw [e]
    rintro ⟨n, hn, c, hc⟩
    have h0 := hc ⟨0, 0, 0⟩ (by simp [hl])
    have h1 := hc ⟨1, 0, 0⟩ (by simp [hl])
    have h2 := hc ⟨0, 1, 0⟩ (by simp [hl])
    have h3 := hc ⟨0, 0, 1⟩ (by simp [hl])
    simp only [dot] at h0 h1 h2 h3
    apply hn
    ext
    · show n.x = 0; linarith
    · show n.y = 0; linarith
    · show n.z = 0; linarith
  · rw [e, hl]
    simp [Near]

end
end Zeo

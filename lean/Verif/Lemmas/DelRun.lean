import Verif.Lemmas.DelFinal

/-! # All points -/

namespace Zeo.Del
open DelG

variable {pos : ℕ → Vec2 ℝ} {h0 : Heap} {L0 : List ℕ} {tc N : ℕ}

theorem inc_inside {a b c p : Vec2 ℝ} (hA : 0 < o a b c) (hp : Cl a b c p) : inc a b c p ≤ 0 := by
  have e : o a b c * inc a b c p = -(o b c p * o c a p * ((a.x - b.x)^2 + (a.y - b.y)^2) +
      o c a p * o a b p * ((b.x - c.x)^2 + (b.y - c.y)^2) + o a b p * o b c p * ((c.x - a.x)^2 + (c.y - a.y)^2)) := by
    simp only [o, inc]; ring
  obtain ⟨h1, h2, h3⟩ := hp
  have q : 0 ≤ o b c p * o c a p * ((a.x - b.x)^2 + (a.y - b.y)^2) +
      o c a p * o a b p * ((b.x - c.x)^2 + (b.y - c.y)^2) + o a b p * o b c p * ((c.x - a.x)^2 + (c.y - a.y)^2) := by positivity
  by_contra hc
  push Not at hc
  have := mul_pos hA hc
  linarith

set_option maxHeartbeats 1000000 in
/-- The state after the replacement of a triangle. -/
theorem Mid.init (G : Good pos h0 L0 N) (hne : ∀ i < N, pos N ≠ pos i) (htc : tc ∈ L0)
    (hin : InC pos (h0 tc) (pos N)) {T : Fin 3 → ℕ} (hT : Function.Injective T) (hTL : ∀ k, T k ∉ L0) {h' : Heap}
    (S : Splits h0 h' tc N T) :
    Mid pos h0 L0 tc N h' (L0.erase tc ++ [T 0, T 1, T 2])
      (push h' (T 2) 2 (push h' (T 1) 1 (push h' (T 0) 0 []))) := by
  have MS := G.mesh.split htc hT hTL S
  have mem := fun s => mem_split (T := T) (tc := tc) G.mesh.nodup (s := s)
  have hold : ∀ s ∈ L0, ∀ k, s ≠ T k := by rintro s hs k rfl; exact hTL k hs
  have V0 : ∀ k, (h' (T k)).v k = (h0 tc).v k := fun k => by rw [S.vT, Function.update_of_ne (n02 k)]
  have V1 : ∀ k, (h' (T k)).v (k + 1) = (h0 tc).v (k + 1) := fun k => by rw [S.vT, Function.update_of_ne (n12 k)]
  have V2 : ∀ k, (h' (T k)).v (k + 2) = N := fun k => by rw [S.vT, Function.update_self]
  have itc := G.mesh.inj tc htc
  have Otc := G.ori tc htc
  have ned : ∀ i, pos N ≠ pos ((h0 tc).v i) := fun i => hne _ (G.mesh.vlt tc htc i)
  have hcl : ∀ k, Cl (pos ((h0 tc).v k)) (pos ((h0 tc).v (k + 1))) (pos ((h0 tc).v (k + 2))) (pos N) := by
    intro k
    refine ⟨hin k, ?_, ?_⟩
    · have := hin (k + 1); rw [f11] at this; exact this
    · have := hin (k + 2); rw [f21] at this; exact this
  have rk := fun k => O_rot (pos := pos) (h0 tc) k
  have OT : ∀ k, O pos (h' (T k)) = o (pos ((h0 tc).v k)) (pos ((h0 tc).v (k + 1))) (pos N) := by
    intro k; rw [← O_rot _ k, V0, V1, V2]
  have isT : ∀ s ∈ L0.erase tc ++ [T 0, T 1, T 2], ∀ i, (h' s).v i = N → ∃ k, s = T k ∧ i = k + 2 := by
    intro s hs i hi
    rcases (mem s).1 hs with ⟨hsL, -⟩ | ⟨k, rfl⟩
    · rw [S.vs s (hold s hsL)] at hi
      exact absurd hi (G.mesh.vlt s hsL i).ne
    · exact ⟨k, rfl, MS.inj _ hs (hi.trans (V2 k).symm)⟩
  have isO : ∀ s ∈ L0.erase tc ++ [T 0, T 1, T 2], O pos (h' s) = 0 → ∃ k, s = T k := by
    intro s hs hz
    rcases (mem s).1 hs with ⟨hsL, -⟩ | ⟨k, rfl⟩
    · have := G.ori s hsL
      simp only [O] at this hz
      rw [S.vs s (hold s hsL)] at hz
      linarith
    · exact ⟨k, rfl⟩
  refine ⟨MS, ?_, ?_, ?_, ?_, ?_, ?_, ?_⟩
  · intro s hs hsN
    rcases (mem s).1 hs with ⟨hsL, hstc⟩ | ⟨k, rfl⟩
    · exact ⟨hsL, hstc, S.vs s (hold s hsL)⟩
    · exact absurd (V2 k) (hsN _)
  · intro s hs i hi
    obtain ⟨k, rfl, rfl⟩ := isT s hs i hi
    rw [OT, f21, f22, V0, V1]
    exact ⟨hin k, fun hz => (edge_pt (by rw [rk]; exact Otc) (hcl k) hz (ned _) (ned _)).2.2⟩
  · intro s hs r hr e1 e2
    obtain ⟨k, rfl⟩ := isO s hs e1
    obtain ⟨l, rfl⟩ := isO r hr e2
    rw [OT] at e1 e2
    obtain ⟨q1, q2, -⟩ := edge_pt (by rw [rk]; exact Otc) (hcl k) e1 (ned _) (ned _)
    rcases three k l with rfl | rfl | rfl
    · rfl
    · rw [f11] at e2; linarith
    · rw [f21] at e2; linarith
  · intro s hs i hi
    obtain ⟨k, rfl, rfl⟩ := isT s hs i hi
    refine ⟨tc, htc, k, by rw [f21, V0], by rw [f22, V1], ?_⟩
    exact inc_inside Otc ((InC_iff _ _).1 hin)
  · intro s hs i hi
    obtain ⟨k, rfl, rfl⟩ := isT s hs i hi
    rw [f21]
    have : (h' (T k)).adj k = none ∨ (T k, k) ∈ push h' (T 2) 2 (push h' (T 1) 1 (push h' (T 0) 0 [])) := by
      fin_cases k
      · exact (push_self h' (T 0) 0 []).imp_right fun q => push_mono (push_mono q)
      · exact (push_self h' (T 1) 1 _).imp_right fun q => push_mono q
      · exact push_self h' (T 2) 2 _
    rcases this with q | q
    · exact Or.inr (Or.inl q)
    · exact Or.inl q
  · intro q hq
    have : ∃ k, q = (T k, k) := by
      rcases mem_push hq with rfl | hq
      · exact ⟨2, rfl⟩
      · rcases mem_push hq with rfl | hq
        · exact ⟨1, rfl⟩
        · rcases mem_push hq with rfl | hq
          · exact ⟨0, rfl⟩
          · simp at hq
    obtain ⟨k, rfl⟩ := this
    exact ⟨(mem _).2 (Or.inr ⟨k, rfl⟩), V2 k⟩
  · intro x gx ox
    rw [← G.cnt x (gx.mono (Nat.le_succ N)) ox]
    have hperm := List.perm_cons_erase htc
    rw [(hperm.map _).sum_eq]
    simp only [List.map_append, List.map_cons, List.map_nil, List.sum_append, List.sum_cons, List.sum_nil]
    have e1 : ((L0.erase tc).map fun t => D pos (h' t) x) = (L0.erase tc).map fun t => D pos (h0 t) x := by
      apply List.map_congr_left
      intro s hs
      have hs := hold s (List.mem_of_mem_erase hs)
      simp only [D, S.vs s hs]
    have hN : ∀ i, o (pos N) (pos ((h0 tc).v i)) x ≠ 0 := fun i =>
      gx N (Nat.lt_succ_self N) _ ((G.mesh.vlt tc htc i).trans (Nat.lt_succ_self N)) (ned i)
    have e2 := ind_split ((InC_iff _ _).1 hin) Otc (hN 0) (hN 1) (hN 2)
    have d0 : D pos (h' (T 0)) x = ind (pos ((h0 tc).v 0)) (pos ((h0 tc).v 1)) (pos N) x := by
      simp [D, S.vT]
    have d1 : D pos (h' (T 1)) x = ind (pos N) (pos ((h0 tc).v 1)) (pos ((h0 tc).v 2)) x := by
      simp [D, S.vT]
    have d2 : D pos (h' (T 2)) x = ind (pos ((h0 tc).v 0)) (pos N) (pos ((h0 tc).v 2)) x := by
      simp [D, S.vT]
    rw [e1, d0, d1, d2]
    have : D pos (h0 tc) x = ind (pos ((h0 tc).v 0)) (pos ((h0 tc).v 1)) (pos ((h0 tc).v 2)) x := rfl
    rw [this, e2]
    omega

theorem oldn_le (N : ℕ) (h : Heap) (L : List ℕ) : oldn N h L ≤ L.length := by
  unfold oldn
  induction L with
  | nil => simp
  | cons a l ih => simp only [List.map_cons, List.sum_cons, List.length_cons]; split <;> omega

theorem mem_triangle {a b c p : Vec2 ℝ} (hA : 0 < o a b c) (hp : Cl a b c p) : p ∈ Spec.triangle2 a b c := by
  obtain ⟨h1, h2, h3⟩ := hp
  refine ⟨o b c p / o a b c, o c a p / o a b c, o a b p / o a b c, by positivity, by positivity, by positivity, ?_, ?_⟩
  · have := o_sum a b c p
    field_simp
    linarith
  · have ex : o a b c * p.x = o b c p * a.x + o c a p * b.x + o a b p * c.x := by simp only [o]; ring
    have ey : o a b c * p.y = o b c p * a.y + o c a p * b.y + o a b p * c.y := by simp only [o]; ring
    ext
    · simp only [Spec.comb2]; field_simp; linarith
    · simp only [Spec.comb2]; field_simp; linarith

theorem triangle_cl {a b c p : Vec2 ℝ} (hA : 0 < o a b c) (hp : p ∈ Spec.triangle2 a b c) : Cl a b c p := by
  obtain ⟨x, y, z, hx, hy, hz, hs, rfl⟩ := hp
  have hz' : z = 1 - x - y := by linarith
  have e1 : o a b (Spec.comb2 x y z a b c) = z * o a b c := by subst hz'; simp only [o, Spec.comb2]; ring
  have e2 : o b c (Spec.comb2 x y z a b c) = x * o a b c := by subst hz'; simp only [o, Spec.comb2]; ring
  have e3 : o c a (Spec.comb2 x y z a b c) = y * o a b c := by subst hz'; simp only [o, Spec.comb2]; ring
  exact ⟨by rw [e1]; positivity, by rw [e2]; positivity, by rw [e3]; positivity⟩

/-- The triangle of the cell. -/
def tri (pos : ℕ → Vec2 ℝ) (c : Cell) : Set (Vec2 ℝ) := Spec.triangle2 (pos (c.v 0)) (pos (c.v 1)) (pos (c.v 2))

theorem listFind_hit {τ : ℝ} (hτ : 0 < τ) {h : Heap} {p : Vec2 ℝ} (l : List ℕ) (ho : ∀ t ∈ l, 0 < O pos (h t))
    (hr : ∀ t ∈ l, InC pos (h t) p ∨ ∀ q ∈ tri pos (h t), τ ≤ Spec.ed2 p q) (hex : ∃ t ∈ l, InC pos (h t) p) :
    ∃ t ∈ l, InC pos (h t) p ∧ listFind τ pos h p l = some (some t) := by
  induction l with
  | nil => simp at hex
  | cons t l ih =>
    have Ot := ho t List.mem_cons_self
    obtain ⟨r, e1, e2, e3⟩ := C21_tri2_closest (pos ((h t).v 0)) (pos ((h t).v 1)) (pos ((h t).v 2)) p
      (by rw [o_outer]; exact Ot.ne')
    unfold listFind
    rw [e1]
    dsimp only
    by_cases hin : InC pos (h t) p
    · have hm := mem_triangle Ot ((InC_iff _ _).1 hin)
      have := e2.2 p hm
      have hz : r.1 = 0 := by
        rw [e3, Spec.ed2, Real.sqrt_eq_zero']
        refine this.trans (le_of_eq ?_)
        simp [Spec.sqd2]
      rw [if_pos (by rw [hz]; exact hτ)]
      exact ⟨t, List.mem_cons_self, hin, rfl⟩
    · have hfar := (hr t List.mem_cons_self).resolve_left hin
      rw [if_neg (by rw [e3]; exact not_lt.2 (hfar _ e2.1))]
      obtain ⟨s, hs, k1, k2⟩ := ih (fun t ht => ho t (List.mem_cons_of_mem _ ht)) (fun t ht => hr t (List.mem_cons_of_mem _ ht))
        (by
          obtain ⟨s, hs, k⟩ := hex
          rcases List.mem_cons.1 hs with rfl | hs
          · exact absurd k hin
          · exact ⟨s, hs, k⟩)
      exact ⟨s, List.mem_cons_of_mem _ hs, k1, k2⟩

theorem listFind_miss {τ : ℝ} {h : Heap} {p : Vec2 ℝ} (l : List ℕ) (ho : ∀ t ∈ l, 0 < O pos (h t))
    (hr : ∀ t ∈ l, ∀ q ∈ tri pos (h t), τ ≤ Spec.ed2 p q) : listFind τ pos h p l = some none := by
  induction l with
  | nil => rfl
  | cons t l ih =>
    have Ot := ho t List.mem_cons_self
    obtain ⟨r, e1, e2, e3⟩ := C21_tri2_closest (pos ((h t).v 0)) (pos ((h t).v 1)) (pos ((h t).v 2)) p
      (by rw [o_outer]; exact Ot.ne')
    unfold listFind
    rw [e1]
    dsimp only
    rw [if_neg (by rw [e3]; exact not_lt.2 (hr t List.mem_cons_self _ e2.1))]
    exact ih (fun t ht => ho t (List.mem_cons_of_mem _ ht)) (fun t ht => hr t (List.mem_cons_of_mem _ ht))

/-- A good list of triangles. -/
structure GoodSt (pos : ℕ → Vec2 ℝ) (s : St) (N : ℕ) : Prop where
  good : Good pos s.heap s.list N
  fresh : ∀ t ∈ s.list, t < s.next
  len : s.list.length + 5 = 2 * N

/-- The point is in, or far from, each triangle with earlier vertices. -/
def Res (τ : ℝ) (pos : ℕ → Vec2 ℝ) (N : ℕ) : Prop :=
  ∀ i < N, ∀ j < N, ∀ k < N, 0 < o (pos i) (pos j) (pos k) →
    pos N ∈ Spec.triangle2 (pos i) (pos j) (pos k) ∨ ∀ q ∈ Spec.triangle2 (pos i) (pos j) (pos k), τ ≤ Spec.ed2 (pos N) q

theorem update_good {τ : ℝ} (hτ : 0 < τ) {s : St} {N fuel : ℕ} (G : GoodSt pos s N) (hO : Outer pos (N + 1)) (hN : 3 ≤ N)
    (hne : ∀ i < N, pos N ≠ pos i) (hres : Res τ pos N) (hf : 4 * N ≤ fuel + 3) :
    ∃ s', update τ pos fuel s N = some (some s') ∧ GoodSt pos s' (N + 1) := by
  have GG := G.good
  have hcov := GG.cover (y := pos N) (fun m => hO.ins N (Nat.lt_succ_self N) hN m)
  obtain ⟨tc, htc, hin, hfind⟩ := listFind_hit hτ s.list GG.ori (by
    intro t ht
    have v := GG.mesh.vlt t ht
    rcases hres _ (v 0) _ (v 1) _ (v 2) (GG.ori t ht) with q | q
    · exact Or.inl ((InC_iff _ _).2 (triangle_cl (GG.ori t ht) q))
    · exact Or.inr q) hcov
  let T : Fin 3 → ℕ := fun k => s.next + k.val
  have hT : Function.Injective T := by
    intro a b hab
    simp only [T] at hab
    exact Fin.ext (by omega)
  have hTL : ∀ k, T k ∉ s.list := by
    intro k hk
    have := G.fresh _ hk
    simp only [T] at this
    omega
  have S := splits s.heap tc N T hT (by rintro k rfl; exact hTL k htc) (GG.mesh.inj tc htc) (by
    intro k b hb
    have hbL := (GG.mesh.adj tc htc k b hb).1
    exact ⟨GG.mesh.inj b hbL, by rintro j rfl; exact hTL j hbL⟩)
  have M := Mid.init GG hne htc hin hT hTL S
  have hlen : (s.list.erase tc ++ [T 0, T 1, T 2]).length = s.list.length + 2 := by
    have := List.length_erase_of_mem htc
    have := List.length_pos_of_mem htc
    simp only [List.length_append, List.length_cons, List.length_nil]
    omega
  -- the triangle itself is gone
  have hold : oldn N (split s.heap tc N (T 0) (T 1) (T 2)) (s.list.erase tc ++ [T 0, T 1, T 2]) + 1 ≤ s.list.length := by
    have e : oldn N (split s.heap tc N (T 0) (T 1) (T 2)) (s.list.erase tc ++ [T 0, T 1, T 2]) =
        oldn N (split s.heap tc N (T 0) (T 1) (T 2)) (s.list.erase tc) := by
      have z : ∀ k, (if ∀ i, (split s.heap tc N (T 0) (T 1) (T 2) (T k)).v i ≠ N then 1 else 0) = 0 := by
        intro k
        rw [if_neg]
        intro hh
        apply hh (k + 2)
        rw [S.vT, Function.update_self]
      simp only [oldn, List.map_append, List.map_cons, List.map_nil, List.sum_append, List.sum_cons, List.sum_nil]
      rw [z 0, z 1, z 2]
      omega
    have := oldn_le N (split s.heap tc N (T 0) (T 1) (T 2)) (s.list.erase tc)
    have := List.length_erase_of_mem htc
    have := List.length_pos_of_mem htc
    omega
  obtain ⟨h', e, M'⟩ := Mid.legalize GG hne fuel _ _ M (by
    have l1 := push_len (split s.heap tc N (T 0) (T 1) (T 2)) (T 2) 2 (push (split s.heap tc N (T 0) (T 1) (T 2)) (T 1) 1
      (push (split s.heap tc N (T 0) (T 1) (T 2)) (T 0) 0 []))
    have l2 := push_len (split s.heap tc N (T 0) (T 1) (T 2)) (T 1) 1 (push (split s.heap tc N (T 0) (T 1) (T 2)) (T 0) 0 [])
    have l3 := push_len (split s.heap tc N (T 0) (T 1) (T 2)) (T 0) 0 []
    have := G.len
    simp only [List.length_nil] at l3
    omega)
  refine ⟨⟨h', s.list.erase tc ++ [T 0, T 1, T 2], s.next + 3⟩, ?_, ?_⟩
  · unfold update
    rw [hfind]
    dsimp only
    have e' : Del.legalize pos fuel (split s.heap tc N s.next (s.next + 1) (s.next + 2))
        (push (split s.heap tc N s.next (s.next + 1) (s.next + 2)) (s.next + 2) 2
          (push (split s.heap tc N s.next (s.next + 1) (s.next + 2)) (s.next + 1) 1
            (push (split s.heap tc N s.next (s.next + 1) (s.next + 2)) s.next 0 []))) = some h' := e
    rw [e']
    rfl
  · refine ⟨M'.good GG hO hN hne htc hin, ?_, ?_⟩
    · intro t ht
      rcases (mem_split GG.mesh.nodup).1 ht with ⟨q, -⟩ | ⟨k, rfl⟩
      · have := G.fresh t q
        show t < s.next + 3
        omega
      · show s.next + k.val < s.next + 3
        have := k.isLt
        omega
    · show (s.list.erase tc ++ [T 0, T 1, T 2]).length + 5 = 2 * (N + 1)
      rw [hlen]
      have := G.len
      omega

theorem update_miss {τ : ℝ} {s : St} {N fuel p : ℕ} (G : GoodSt pos s N)
    (hr : ∀ t ∈ s.list, ∀ q ∈ tri pos (s.heap t), τ ≤ Spec.ed2 (pos p) q) : update τ pos fuel s p = some none := by
  unfold update
  rw [listFind_miss s.list G.good.ori hr]

theorem start_good (hO : Outer pos 3) : GoodSt pos start 3 := by
  have hv : ∀ t i, (start.heap t).v i = i.val := by intro t i; fin_cases i <;> rfl
  have ha : ∀ t i, (start.heap t).adj i = none := by intro t i; fin_cases i <;> rfl
  have hI : start.list = [0] := rfl
  refine ⟨⟨⟨by simp [hI], ?_, ?_, ?_, ?_⟩, ?_, ?_, ?_⟩, ?_, rfl⟩
  · intro t _ i; rw [hv]; exact i.isLt
  · intro t _ i j hij; rw [hv, hv] at hij; exact Fin.ext hij
  · intro t _ i a h; rw [ha] at h; simp at h
  · intro t _ i _; exact ⟨i, hv t i, hv t (i + 1)⟩
  · intro t _
    have := hO.o 0
    rw [O, hv, hv, hv]; exact this
  · intro t _ s hs
    rw [I, hv, hv, hv]
    have : s = 0 ∨ s = 1 ∨ s = 2 := by omega
    rcases this with rfl | rfl | rfl
    · exact (inc_a _ _ _).symm.le
    · exact (inc_b _ _ _).symm.le
    · exact (inc_c _ _ _).symm.le
  · intro x _ hx
    simp only [hI, List.map_cons, List.map_nil, List.sum_cons, List.sum_nil]
    rw [D_one (fun i => by rw [hv, hv]; exact hx i), Nat.add_zero]
  · intro t ht
    rw [hI] at ht
    simp only [List.mem_singleton] at ht
    subst ht; exact Nat.one_pos

/-- The loop over the points. -/
theorem insertAll_good {τ : ℝ} (hτ : 0 < τ) {fuel : ℕ} (n : ℕ) : ∀ (N : ℕ) (s : St), 3 ≤ N → GoodSt pos s N →
    Outer pos (N + n) → (∀ i < N + n, ∀ j < i, 3 ≤ i → pos i ≠ pos j) → (∀ i < N + n, N ≤ i → Res τ pos i) →
    4 * (N + n) ≤ fuel + 7 →
    ∃ s', insertAll τ pos fuel ((List.range n).map (· + N)) s = some (some s') ∧ GoodSt pos s' (N + n) := by
  induction n with
  | zero => intro N s _ G _ _ _ _; exact ⟨s, rfl, G⟩
  | succ n ih =>
    intro N s hN G hO hne hres hf
    obtain ⟨s1, e1, G1⟩ := update_good hτ (fuel := fuel) G (hO.mono (by omega)) hN (fun i hi => hne N (by omega) i hi hN)
      (hres N (by omega) le_rfl) (by omega)
    obtain ⟨s2, e2, G2⟩ := ih (N + 1) s1 (by omega) G1 (hO.mono (by omega)) (fun i hi => hne i (by omega))
      (fun i hi hN' => hres i (by omega) (by omega)) (by omega)
    refine ⟨s2, ?_, by have := G2; rwa [show N + 1 + n = N + (n + 1) by omega] at this⟩
    rw [List.range_succ_eq_map, List.map_cons, List.map_map]
    have : ((fun x => x + N) ∘ Nat.succ) = (fun x => x + (N + 1)) := by
      funext x; simp only [Function.comp]; omega
    rw [this]
    unfold insertAll
    rw [Nat.zero_add, e1]
    exact e2

theorem insertAll_append (τ : ℝ) (fuel : ℕ) (l1 l2 : List ℕ) (s : St) :
    insertAll τ pos fuel (l1 ++ l2) s =
      match insertAll τ pos fuel l1 s with
      | none => none
      | some none => some none
      | some (some s') => insertAll τ pos fuel l2 s' := by
  induction l1 generalizing s with
  | nil => rfl
  | cons a l ih =>
    simp only [List.cons_append, insertAll]
    cases update τ pos fuel s a with
    | none => rfl
    | some r =>
      cases r with
      | none => rfl
      | some s' => exact ih s'

end Zeo.Del

import Verif.Lemmas.DelEnd

/-! # Tolerances that resolve points -/

namespace Zeo.Del
open DelG

theorem all_small {α : Type*} (P : ℝ → α → Prop) (hm : ∀ δ δ' x, 0 < δ' → δ' ≤ δ → P δ x → P δ' x)
    (hP : ∀ x, ∃ δ > 0, P δ x) (l : List α) : ∃ δ > 0, ∀ x ∈ l, P δ x := by
  induction l with
  | nil => exact ⟨1, one_pos, by simp⟩
  | cons a l ih =>
    obtain ⟨δ, h, hl⟩ := ih
    obtain ⟨δ', h', ha⟩ := hP a
    refine ⟨min δ δ', lt_min h h', fun x hx => ?_⟩
    rcases List.mem_cons.1 hx with rfl | hx
    · exact hm _ _ _ (lt_min h h') (min_le_right _ _) ha
    · exact hm _ _ _ (lt_min h h') (min_le_left _ _) (hl x hx)

/-- A point on the other side of a line is at a distance. -/
theorem far_side {a b p q : Vec2 ℝ} (hp : o a b p < 0) (hq : 0 ≤ o a b q) : -o a b p / Spec.ed2 a b ≤ Spec.ed2 p q := by
  have hab : 0 < Spec.ed2 a b := by
    rw [Spec.ed2, Real.sqrt_pos]
    have : 0 ≤ Spec.sqd2 a b := by simp only [Spec.sqd2]; positivity
    rcases this.eq_or_lt with h | h
    · exfalso
      have hx : a.x = b.x := by simp only [Spec.sqd2] at h; nlinarith [sq_nonneg (a.x - b.x), sq_nonneg (a.y - b.y)]
      have hy : a.y = b.y := by simp only [Spec.sqd2] at h; nlinarith [sq_nonneg (a.x - b.x), sq_nonneg (a.y - b.y)]
      simp only [o, hx, hy] at hp
      simp at hp
    · exact h
  rw [div_le_iff₀ hab, Spec.ed2, Spec.ed2, ← Real.sqrt_mul (by simp only [Spec.sqd2]; positivity)]
  apply Real.le_sqrt_of_sq_le
  have e : Spec.sqd2 p q * Spec.sqd2 a b = (o a b q - o a b p) ^ 2 +
      ((b.x - a.x) * (q.x - p.x) + (b.y - a.y) * (q.y - p.y)) ^ 2 := by
    simp only [Spec.sqd2, o]; ring
  rw [e]
  nlinarith [sq_nonneg ((b.x - a.x) * (q.x - p.x) + (b.y - a.y) * (q.y - p.y))]

theorem margin1 (a b c p : Vec2 ℝ) : ∃ δ > 0, 0 < Spec.area2 a b c →
    p ∈ Spec.triangle2 a b c ∨ ∀ q ∈ Spec.triangle2 a b c, δ ≤ Spec.ed2 p q := by
  by_cases hA : 0 < o a b c
  · by_cases hp : Cl a b c p
    · exact ⟨1, one_pos, fun _ => Or.inl (mem_triangle hA hp)⟩
    · have key : ∀ a b c : Vec2 ℝ, o a b p < 0 → 0 < -o a b p / Spec.ed2 a b := by
        intro a b c h
        apply div_pos (by linarith)
        rw [Spec.ed2, Real.sqrt_pos]
        have : 0 ≤ Spec.sqd2 a b := by simp only [Spec.sqd2]; positivity
        rcases this.eq_or_lt with h' | h'
        · exfalso
          have hx : a.x = b.x := by simp only [Spec.sqd2] at h'; nlinarith [sq_nonneg (a.x - b.x), sq_nonneg (a.y - b.y)]
          have hy : a.y = b.y := by simp only [Spec.sqd2] at h'; nlinarith [sq_nonneg (a.x - b.x), sq_nonneg (a.y - b.y)]
          simp only [o, hx, hy] at h
          simp at h
        · exact h'
      by_cases h1 : o a b p < 0
      · exact ⟨_, key a b c h1, fun _ => Or.inr fun q hq => far_side h1 (triangle_cl hA hq).1⟩
      · by_cases h2 : o b c p < 0
        · exact ⟨_, key b c a h2, fun _ => Or.inr fun q hq => far_side h2 (triangle_cl hA hq).2.1⟩
        · by_cases h3 : o c a p < 0
          · exact ⟨_, key c a b h3, fun _ => Or.inr fun q hq => far_side h3 (triangle_cl hA hq).2.2⟩
          · exact absurd ⟨not_lt.1 h1, not_lt.1 h2, not_lt.1 h3⟩ hp
  · exact ⟨1, one_pos, fun h => absurd h hA⟩

/-- Every list of points is resolved by small tolerances. -/
theorem margin (ps : List (Vec2 ℝ)) : ∃ δ > 0, ∀ τ, τ ≤ δ → Spec.Resolves2 τ ps := by
  obtain ⟨δ, h, hl⟩ := all_small
    (fun δ (x : (Vec2 ℝ × Vec2 ℝ) × (Vec2 ℝ × Vec2 ℝ)) => 0 < Spec.area2 x.1.1 x.1.2 x.2.1 →
      x.2.2 ∈ Spec.triangle2 x.1.1 x.1.2 x.2.1 ∨ ∀ q ∈ Spec.triangle2 x.1.1 x.1.2 x.2.1, δ ≤ Spec.ed2 x.2.2 q)
    (fun δ δ' x _ hd hp hA => (hp hA).imp_right fun h q hq => hd.trans (h q hq))
    (fun x => margin1 _ _ _ _) ((ps ×ˢ ps) ×ˢ (ps ×ˢ ps))
  refine ⟨δ, h, fun τ hτ a ha b hb c hc p hp hA => ?_⟩
  have := hl ((a, b), (c, p)) (by simp [List.pair_mem_product, ha, hb, hc, hp]) hA
  exact this.imp_right fun h q hq => hτ.trans (h q hq)

theorem resolves2_mono {τ : ℝ} {ps qs : List (Vec2 ℝ)} (h : ∀ p ∈ ps, p ∈ qs) (hr : Spec.Resolves2 τ qs) :
    Spec.Resolves2 τ ps :=
  fun a ha b hb c hc p hp => hr a (h a ha) b (h b hb) c (h c hc) p (h p hp)

end Zeo.Del

namespace Zeo.Del
open DelG

variable {pos : ℕ → Vec2 ℝ}

/-- No set of triangles of a mesh is closed under neighbourhood. -/
theorem Mesh.open_set {h : Heap} {L P : List ℕ} {N : ℕ} (M : Mesh h L N) (ho : ∀ t ∈ L, 0 < O pos (h t))
    (hP : ∀ t ∈ P, t ∈ L) (hne : P ≠ []) : ∃ t ∈ P, ∃ i, ∀ a, (h t).adj i = some a → a ∉ P := by
  by_contra hc
  push Not at hc
  obtain ⟨d, hd⟩ := gen_dir pos N
  let f : Vec2 ℝ → ℝ := fun p => p.x * d.y - p.y * d.x
  obtain ⟨t1, ht1⟩ := List.exists_mem_of_ne_nil _ hne
  obtain ⟨q, hq, hmax⟩ := Finset.exists_max_image (P.toFinset ×ˢ (Finset.univ : Finset (Fin 3)))
    (fun q : ℕ × Fin 3 => f (pos ((h q.1).v q.2))) ⟨(t1, 0), by simp [ht1]⟩
  obtain ⟨t0, i0⟩ := q
  simp only [Finset.mem_product, List.mem_toFinset, Finset.mem_univ, and_true, Prod.forall] at hq hmax
  generalize hv : (h t0).v i0 = v at hmax
  -- the last edge at this corner
  let g : ℕ × Fin 3 → ℝ := fun q =>
    (((pos ((h q.1).v (q.2 + 2))).x - (pos v).x) * d.x + ((pos ((h q.1).v (q.2 + 2))).y - (pos v).y) * d.y) /
      (f (pos v) - f (pos ((h q.1).v (q.2 + 2))))
  obtain ⟨r, hr, hmin⟩ := Finset.exists_min_image
    ((P.toFinset ×ˢ (Finset.univ : Finset (Fin 3))).filter fun q => (h q.1).v q.2 = v) g
    ⟨(t0, i0), by simp [hq, hv]⟩
  obtain ⟨t, i⟩ := r
  simp only [Finset.mem_filter, Finset.mem_product, List.mem_toFinset, Finset.mem_univ, and_true, Prod.forall, and_imp] at hr hmin
  obtain ⟨htP, hti⟩ := hr
  obtain ⟨a, ha, haP⟩ := hc t htP (i + 2)
  obtain ⟨haL, j, -, e1, e2⟩ := M.adj t (hP t htP) (i + 2) a ha
  rw [f21, hti] at e1
  have hle := hmin a j haP e1
  have hO := ho a haL
  rw [← O_rot _ j, e1, e2] at hO
  -- distances from the corner
  have hpos : ∀ t ∈ P, ∀ k, (h t).v k ≠ v → pos ((h t).v k) ≠ pos v → 0 < f (pos v) - f (pos ((h t).v k)) := by
    intro t ht k _ hp
    have h1 := hmax t k ht
    have h2 := hd v (by rw [← hv]; exact M.vlt t0 (hP t0 hq) i0) _ (M.vlt t (hP t ht) k) (Ne.symm hp)
    have h3 : f (pos v) - f (pos ((h t).v k)) ≠ 0 := by
      intro h0; apply h2; simp only [f] at h0; linarith
    exact lt_of_le_of_ne (by linarith) (Ne.symm h3)
  have hw : 0 < f (pos v) - f (pos ((h t).v (i + 2))) := by
    apply hpos t htP
    · intro e
      rw [← hti] at e
      exact n02 i (M.inj t (hP t htP) e.symm)
    · intro e; rw [e] at hO; simp [o] at hO
  have hw' : 0 < f (pos v) - f (pos ((h a).v (j + 2))) := by
    apply hpos a haP
    · intro e
      rw [← e1] at e
      exact n02 j (M.inj a haL e.symm)
    · intro e; rw [e, o_self] at hO; exact lt_irrefl _ hO
  simp only [g] at hle
  rw [div_le_div_iff₀ hw hw'] at hle
  generalize pos ((h t).v (i + 2)) = w at *
  generalize pos ((h a).v (j + 2)) = w' at *
  generalize pos v = p at *
  have hdd : 0 < d.x ^ 2 + d.y ^ 2 := by
    by_contra hcon
    have h0 : d.x ^ 2 + d.y ^ 2 = 0 := le_antisymm (not_lt.1 hcon) (by positivity)
    have hx : d.x = 0 := by nlinarith [sq_nonneg d.x, sq_nonneg d.y]
    have hy : d.y = 0 := by nlinarith [sq_nonneg d.x, sq_nonneg d.y]
    simp only [f, hx, hy] at hw
    simp at hw
  have e : o p w w' * (d.x ^ 2 + d.y ^ 2) =
      ((w.x - p.x) * d.x + (w.y - p.y) * d.y) * (f p - f w') - ((w'.x - p.x) * d.x + (w'.y - p.y) * d.y) * (f p - f w) := by
    simp only [o, f]; ring
  have := mul_pos hO hdd
  linarith

end Zeo.Del

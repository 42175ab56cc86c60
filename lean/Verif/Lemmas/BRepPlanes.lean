import Verif.Lemmas.BRepConv
import Verif.Lemmas.BRepTrunc
import Verif.Lemmas.Triangle

/-! # Truncation by all the faces of a polyhedron: helper lemmas -/

namespace Zeo.BRep
open Zeo.Spec

theorem toPlane_unit {τ : ℝ} (hτ : 0 ≤ τ) (hτ' : τ < 1 / 2) {t : Tri3 ℝ}
    (h : t.norm.x ^ 2 + t.norm.y ^ 2 + t.norm.z ^ 2 = 1) : t.toPlane τ = some ⟨t.v0, t.norm⟩ := by
  have ht : ¬ t.norm.isTol τ := by
    intro ht
    have h3 : |t.norm.x| ≤ τ ∧ |t.norm.y| ≤ τ ∧ |t.norm.z| ≤ τ := by
      simpa [Vec3.isTol, zIsTol, and_assoc] using ht
    have hx := sq_le_sq' (by linarith [abs_nonneg t.norm.x]) h3.1
    have hy := sq_le_sq' (by linarith [abs_nonneg t.norm.y]) h3.2.1
    have hz := sq_le_sq' (by linarith [abs_nonneg t.norm.z]) h3.2.2
    rw [sq_abs] at hx hy hz
    nlinarith
  have hn : t.norm.norm = 1 := by
    rw [Vec3.norm, Vec3.sqrNorm, Vec3.inner, ← sq, ← sq, ← sq, h, Real.sqrt_one]
  obtain ⟨-, h2, -⟩ := normalize_unit hτ (old := t.norm) ht
  rw [hn] at h2
  rw [Tri3.toPlane, Plane3.create, if_neg ht]
  have e : (t.norm.normalize τ t.norm).2 = t.norm := by
    conv_rhs => rw [h2]
    ext <;> simp only [Vec3.mul, one_mul]
  rw [e]

theorem clipped_refl (τ : ℝ) (l : List (Vec3 ℝ × Vec3 ℝ × Vec3 ℝ)) : ClippedTo τ [] l l :=
  ⟨fun _ h _ => h, fun u hu => ⟨u, hu, fun q hq => ⟨hq, by simp⟩, 1, one_pos, by ext <;> simp [Vec3.mul]⟩⟩

theorem clipped_cons {τ : ℝ} {pl : Plane3 ℝ} {H : List (Plane3 ℝ)} {b b' : BRep}
    {out : List (Vec3 ℝ × Vec3 ℝ × Vec3 ℝ)} (h : Truncated τ b pl b')
    (k : ClippedTo τ H (b'.flist.map (corners b')) out) :
    ClippedTo τ (pl :: H) (b.flist.map (corners b)) out := by
  refine ⟨?_, ?_⟩
  · rintro q ⟨t, ht, hq⟩ hh
    obtain ⟨f, hf, rfl⟩ := List.mem_map.1 ht
    obtain ⟨g, hg, hq'⟩ := h.cover f hf q hq (hh pl (by simp))
    exact k.cover q ⟨_, List.mem_map_of_mem hg, hq'⟩ fun p hp => hh p (by simp [hp])
  · intro u hu
    obtain ⟨t, ht, h1, a, ha, e⟩ := k.origin u hu
    obtain ⟨g, hg, rfl⟩ := List.mem_map.1 ht
    obtain ⟨f, hf, h2, c, hc, e'⟩ := h.origin g hg
    refine ⟨_, List.mem_map_of_mem hf, fun q hq => ⟨(h2 q (h1 q hq).1).1, ?_⟩, a * c, mul_pos ha hc, ?_⟩
    · intro p hp
      rcases List.mem_cons.1 hp with rfl | hp
      · exact (h2 q (h1 q hq).1).2
      · exact (h1 q hq).2 p hp
    · rw [e, e']; ext <;> simp only [Vec3.mul] <;> ring

/-- Everything about a truncation by a list of planes. -/
structure TruncatedAll (τ : ℝ) (H : List (Plane3 ℝ)) (b b' : BRep) : Prop where
  sound : Sound b'
  used : Used b → Used b'
  clip : ClippedTo τ H (b.flist.map (corners b)) (b'.flist.map (corners b'))
  same : (∀ pl ∈ H, ∀ i ∈ b.vlist, height pl (b.pos i) ≤ τ) → b'.flist = b.flist ∧ b'.vlist = b.vlist ∧
    b'.elist = b.elist ∧ b'.edge = b.edge ∧ ∀ i, b'.pos i = b.pos i

theorem truncPlanes_ok {τ : ℝ} (hτ : 0 ≤ τ) (hτ' : τ < 1 / 2) (ph : PH ℝ) :
    ∀ (fs : List (Face ℝ)), (∀ f ∈ fs, f.norm.x ^ 2 + f.norm.y ^ 2 + f.norm.z ^ 2 = 1) →
      ∀ (junk : Plane3 ℝ) (b : BRep), Sound b → ∃ b', truncPlanes τ ph fs junk b = some b' ∧
        TruncatedAll τ (fs.map fun f => ⟨ph.vert f.i0, f.norm⟩) b b' := by
  intro fs
  induction fs with
  | nil =>
    intro _ junk b hb
    exact ⟨b, rfl, hb, id, clipped_refl τ _, fun _ => ⟨rfl, rfl, rfl, rfl, fun _ => rfl⟩⟩
  | cons f fs ih =>
    intro hu junk b hb
    have e : (ph.tri f).toPlane τ = some ⟨ph.vert f.i0, f.norm⟩ := toPlane_unit hτ hτ' (hu f (by simp))
    obtain ⟨b1, e1, t1⟩ := trunc_ok hτ hb ⟨ph.vert f.i0, f.norm⟩
    obtain ⟨b2, e2, t2⟩ := ih (fun g hg => hu g (by simp [hg])) ⟨ph.vert f.i0, f.norm⟩ b1 t1.sound
    refine ⟨b2, ?_, t2.sound, fun h => t2.used (t1.used h), clipped_cons t1 t2.clip, ?_⟩
    · simp only [truncPlanes, e, Option.getD_some]
      rw [e1]
      exact e2
    · intro hh
      have h1 := t1.same (hh _ (by simp))
      have h2 := t2.same (by
        intro pl hp i hi
        rw [h1.2.2.2.2 i]
        exact hh pl (List.mem_cons_of_mem _ hp) i (h1.2.1 ▸ hi))
      exact ⟨h2.1.trans h1.1, h2.2.1.trans h1.2.1, h2.2.2.1.trans h1.2.2.1, h2.2.2.2.1.trans h1.2.2.2.1,
        fun i => (h2.2.2.2.2 i).trans (h1.2.2.2.2 i)⟩

end Zeo.BRep

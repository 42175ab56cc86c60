import Verif.Model.ZTK
import Verif.Props.C47

/-! # C47, continued: optical information -/

namespace Zeo
open ZTK
variable {K : Type*} [Field K] [LinearOrder K] [IsStrictOrderedRing K]

/-- The three colours of an optical information are valid. -/
def Spec.ValidOptic (o : Optic K) : Prop := ValidRGB o.ambient ∧ ValidRGB o.diffuse ∧ ValidRGB o.specular

/-- **C47** (`zOpticalInfoCreate`, `Init`, `CreateSimple`, `Mul`, `Copy`, `Clone`): the colours created are
valid, whatever the arguments; given valid colours creation keeps them, multiplication multiplies componentwise;
a copy has all parameters of the source and keeps its own name, a clone also has the name. -/
theorem C47_optic (a d s : RGB K) (esr sh al r g b : K) (n : Option String) (o1 o2 dest : Optic K) :
    Spec.ValidOptic (Optic.create a d s esr sh al n) ∧ Spec.ValidOptic (Optic.init : Optic K) ∧
    Spec.ValidOptic (Optic.createSimple r g b n) ∧ Spec.ValidOptic (o1.mul o2 dest) ∧
    (Spec.ValidRGB a → Spec.ValidRGB d → Spec.ValidRGB s → Optic.create a d s esr sh al n = ⟨n, a, d, s, esr, sh, al⟩) ∧
    (Spec.ValidRGB (⟨r, g, b⟩ : RGB K) → Optic.createSimple r g b n = ⟨n, ⟨r / 2, g / 2, b / 2⟩, ⟨r, g, b⟩, ⟨0, 0, 0⟩, 0, 0, 1⟩) ∧
    (Spec.ValidOptic o1 → Spec.ValidOptic o2 → o1.mul o2 dest = ⟨dest.name,
      ⟨o1.ambient.r * o2.ambient.r, o1.ambient.g * o2.ambient.g, o1.ambient.b * o2.ambient.b⟩,
      ⟨o1.diffuse.r * o2.diffuse.r, o1.diffuse.g * o2.diffuse.g, o1.diffuse.b * o2.diffuse.b⟩,
      ⟨o1.specular.r * o2.specular.r, o1.specular.g * o2.specular.g, o1.specular.b * o2.specular.b⟩,
      o1.esr * o2.esr, o1.shininess * o2.shininess, o1.alpha * o2.alpha⟩) ∧
    o1.copy dest = ⟨dest.name, o1.ambient, o1.diffuse, o1.specular, o1.esr, o1.shininess, o1.alpha⟩ ∧
    o1.clone dest = o1 := by
  have v : ∀ c : RGB K, Spec.ValidRGB (RGB.set c.r c.g c.b) := fun c => (C47_set _ _ _).1
  refine ⟨⟨v a, v d, v s⟩, ⟨v ⟨1, 1, 1⟩, v ⟨1, 1, 1⟩, v ⟨1, 1, 1⟩⟩, ⟨v ⟨_, _, _⟩, v ⟨_, _, _⟩, v ⟨0, 0, 0⟩⟩,
    ⟨(C47_mul _ _).1, (C47_mul _ _).1, (C47_mul _ _).1⟩, fun h1 h2 h3 => ?_, fun h => ?_, fun h1 h2 => ?_, rfl, rfl⟩
  · rw [Optic.create, RGB.set_of_mem h1, RGB.set_of_mem h2, RGB.set_of_mem h3]
  · obtain ⟨⟨a0, a1⟩, ⟨b0, b1⟩, ⟨d0, d1⟩⟩ := h
    simp only at a0 a1 b0 b1 d0 d1
    have hh : Spec.ValidRGB (⟨1/2 * r, 1/2 * g, 1/2 * b⟩ : RGB K) :=
      ⟨⟨by simp only; linarith, by simp only; linarith⟩, ⟨by simp only; linarith, by simp only; linarith⟩,
        ⟨by simp only; linarith, by simp only; linarith⟩⟩
    have h0 : Spec.ValidRGB (⟨0, 0, 0⟩ : RGB K) := by simp [Spec.ValidRGB]
    rw [Optic.createSimple, Optic.create, RGB.set_of_mem hh, RGB.set_of_mem h0,
      RGB.set_of_mem (⟨⟨a0, a1⟩, ⟨b0, b1⟩, ⟨d0, d1⟩⟩ : Spec.ValidRGB (⟨r, g, b⟩ : RGB K))]
    ext <;> simp <;> ring
  · obtain ⟨x1, x2, x3⟩ := h1
    obtain ⟨y1, y2, y3⟩ := h2
    rw [Optic.mul, (C47_mul _ _).2 x1 y1, (C47_mul _ _).2 x2 y2, (C47_mul _ _).2 x3 y3]

/-- **C47** (`zOpticalInfoBlend`): the blend of valid colours is valid at every ratio, also outside [0,1]; from
ratio 1 upwards it has the parameters of the first, from 0 downwards those of the second; the alpha value stays
between the two. -/
theorem C47_optic_blend (o1 o2 : Optic K) (n : Option String) (h1 : Spec.ValidOptic o1) (h2 : Spec.ValidOptic o2) :
    (∀ k, Spec.ValidOptic (o1.blend o2 k n)) ∧ (∀ k, 1 ≤ k → o1.blend o2 k n = { o1 with name := n }) ∧
    (∀ k, k ≤ 0 → o1.blend o2 k n = { o2 with name := n }) ∧
    (∀ k, min o1.alpha o2.alpha ≤ (o1.blend o2 k n).alpha ∧ (o1.blend o2 k n).alpha ≤ max o1.alpha o2.alpha) := by
  obtain ⟨x1, x2, x3⟩ := h1
  obtain ⟨y1, y2, y3⟩ := h2
  refine ⟨fun k => ⟨(C47_blend _ _ _ x1 y1 (zLimit_mem k)).1, (C47_blend _ _ _ x2 y2 (zLimit_mem k)).1,
    (C47_blend _ _ _ x3 y3 (zLimit_mem k)).1⟩, fun k hk => ?_, fun k hk => ?_, fun k => ?_⟩
  · have : zLimit k (0:K) 1 = 1 := by
      rw [zLimit, if_neg (by linarith)]; split_ifs with h; · rfl
      exact le_antisymm (not_lt.1 h) hk
    ext <;> simp [Optic.blend, RGB.blend, this]
  · have : zLimit k (0:K) 1 = 0 := by
      rw [zLimit]; split_ifs with h h'; · rfl
      · linarith
      · exact le_antisymm hk (not_lt.1 h)
    ext <;> simp [Optic.blend, RGB.blend, this]
  · obtain ⟨k0, k1⟩ := zLimit_mem k
    simp only [Optic.blend]
    set q := zLimit k (0:K) 1
    constructor
    · nlinarith [min_le_left o1.alpha o2.alpha, min_le_right o1.alpha o2.alpha]
    · nlinarith [le_max_left o1.alpha o2.alpha, le_max_right o1.alpha o2.alpha]

/-- Two valid optical informations. -/
example : Spec.ValidOptic (Optic.init : Optic ℚ) ∧ Spec.ValidOptic (Optic.createSimple (1/2) 0 1 none : Optic ℚ) :=
  ⟨(C47_optic ⟨0, 0, 0⟩ ⟨0, 0, 0⟩ ⟨0, 0, 0⟩ 0 0 0 0 0 0 none .init .init .init).2.1,
   (C47_optic ⟨0, 0, 0⟩ ⟨0, 0, 0⟩ ⟨0, 0, 0⟩ 0 0 0 (1/2) 0 1 none .init .init .init).2.2.1⟩

end Zeo

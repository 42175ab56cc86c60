import Verif.Lemmas.Cycle

/-! # C41: generated meshes are closed, consistently oriented, in range and completely filled -/

namespace Zeo
open Spec Gen

/-- The generator writes exactly the allocated faces and refers to allocated vertices only. -/
def Spec.Filled (m : Gen.Mesh) : Prop :=
  m.face.length = m.nf ∧ ∀ f ∈ m.face, f.1 < m.nv ∧ f.2.1 < m.nv ∧ f.2.2 < m.nv

/-- Box. -/
theorem C41_box : Closed box.face ∧ Filled box := by
  constructor
  · unfold Closed; decide
  · unfold Filled; decide

private theorem length_flatMap_const {α β : Type*} (l : List α) (g : α → List β) (k : ℕ) (h : ∀ a ∈ l, (g a).length = k) :
    (l.flatMap g).length = l.length * k := by
  induction l with
  | nil => simp
  | cons a l ih =>
    rw [List.flatMap_cons, List.length_append, ih (fun b hb => h b (List.mem_cons_of_mem _ hb)), h a (List.mem_cons_self ..)]
    simp; ring

/-- Cylinder and elliptic cylinder, for every division count from two. -/
theorem C41_cyl (div : ℕ) (hd : 2 ≤ div) : Closed (cyl div).face ∧ Filled (cyl div) := by
  refine ⟨?_, ?_, ?_⟩
  · rw [closed_iff]
    intro h hh
    unfold cyl
    simp only [bd_append]
    have h1 := bd_fan hh 0 div hd
    have h2 := bd_fan' hh div div hd
    have h3 := bd_strip hh 0 div (fun i => i + div) (fun p => [(p.2, p.1, p.1 + div), (p.2, p.1 + div, p.2 + div)]) (by
      intro p
      simp only [bd_cons, bd_nil]
      rw [hh (p.1 + div) p.2, hh (p.1 + div) (p.2 + div), hh (p.2 + div) p.2]; ring)
    have h4 := ringSum_add h 0 div div
    simp only [zero_add] at h1 h4
    rw [← h4] at h3
    rw [h1, h3, show div * 2 - 1 = div + div - 1 by omega, h2]
    ring
  · simp only [cyl, List.length_append, List.length_map, List.length_range']
    rw [length_flatMap_const _ _ 2 (fun _ _ => rfl), length_ring]; omega
  · intro f hf
    simp only [cyl, List.mem_append, List.mem_map, List.mem_flatMap, List.mem_range'_1] at hf ⊢
    rcases hf with (⟨i, hi, rfl⟩ | ⟨p, hp, hf⟩) | ⟨i, hi, rfl⟩
    · dsimp only; omega
    · have := mem_ring hp
      simp only [List.mem_cons, List.not_mem_nil, or_false] at hf
      rcases hf with rfl | rfl <;> dsimp only <;> omega
    · dsimp only; omega

/-- Cone, for every division count from two. -/
theorem C41_cone (div : ℕ) (hd : 2 ≤ div) : Closed (cone div).face ∧ Filled (cone div) := by
  refine ⟨?_, ?_, ?_⟩
  · rw [closed_iff]
    intro h hh
    unfold cone
    rw [bd_append, bd_apex hh]
    have := bd_fan hh 1 div hd
    rw [show 1 + 2 = 3 from rfl] at this
    rw [this]; ring
  · simp only [cone, List.length_append, List.length_map, List.length_range', length_ring]; omega
  · intro f hf
    simp only [cone, List.mem_append, List.mem_map, List.mem_range'_1] at hf ⊢
    rcases hf with ⟨p, hp, rfl⟩ | ⟨i, hi, rfl⟩
    · have := mem_ring hp; dsimp only; omega
    · dsimp only; omega

/-- Torus (closed section loop of `n` points, `div` copies), for all sizes. -/
theorem C41_torus (n div : ℕ) : Closed (torus n div).face ∧ Filled (torus n div) := by
  refine ⟨?_, ?_, ?_⟩
  · rw [closed_iff]
    intro h hh
    unfold torus
    simp only [bd_flatMap, bd_cons, bd_nil, add_zero]
    have e : ∀ p q : ℕ × ℕ, h (p.1 * div + q.1) (p.2 * div + q.1) + h (p.2 * div + q.1) (p.2 * div + q.2) +
        h (p.2 * div + q.2) (p.1 * div + q.1) + (h (p.1 * div + q.1) (p.2 * div + q.2) +
        h (p.2 * div + q.2) (p.1 * div + q.2) + h (p.1 * div + q.2) (p.1 * div + q.1)) =
        (h (p.1 * div + q.1) (p.2 * div + q.1) - h (p.1 * div + q.2) (p.2 * div + q.2)) +
        (h (p.1 * div + q.2) (p.1 * div + q.1) - h (p.2 * div + q.2) (p.2 * div + q.1)) := by
      intro p q
      rw [hh (p.2 * div + q.1) (p.2 * div + q.2), hh (p.2 * div + q.2) (p.1 * div + q.1),
        hh (p.2 * div + q.2) (p.1 * div + q.2)]; ring
    simp only [e]
    have e1 : ∀ p : ℕ × ℕ, ((ring 0 div).map fun q => (h (p.1 * div + q.1) (p.2 * div + q.1) - h (p.1 * div + q.2) (p.2 * div + q.2)) +
        (h (p.1 * div + q.2) (p.1 * div + q.1) - h (p.2 * div + q.2) (p.2 * div + q.1))).sum =
        ((ring 0 div).map fun q => h (p.1 * div + q.2) (p.1 * div + q.1)).sum -
        ((ring 0 div).map fun q => h (p.2 * div + q.2) (p.2 * div + q.1)).sum := by
      intro p
      rw [List.sum_map_add, sum_map_sub', sum_map_sub',
        ring_shift 0 div (fun j => h (p.1 * div + j) (p.2 * div + j))]
      ring
    simp only [e1]
    rw [sum_map_sub', ring_shift 0 n (fun i => ((ring 0 div).map fun q => h (i * div + q.2) (i * div + q.1)).sum)]
    ring
  · simp only [torus]
    rw [length_flatMap_const _ _ (div * 2), length_ring]
    · ring
    · intro p _
      rw [length_flatMap_const _ _ 2 (fun _ _ => rfl), length_ring]
  · intro f hf
    simp only [torus, List.mem_flatMap] at hf ⊢
    obtain ⟨p, hp, q, hq, hf⟩ := hf
    have h1 := mem_ring hp
    have h2 := mem_ring hq
    have key : ∀ a b, a < n → b < div → a * div + b < n * div := by
      intro a b ha hb
      calc a * div + b < a * div + div := by omega
        _ = (a + 1) * div := by ring
        _ ≤ n * div := Nat.mul_le_mul_right _ ha
    simp only [List.mem_cons, List.not_mem_nil, or_false] at hf
    rcases hf with rfl | rfl <;> exact ⟨key _ _ (by omega) (by omega), key _ _ (by omega) (by omega), key _ _ (by omega) (by omega)⟩

/-- The facet direction correction keeps a mesh closed. -/
theorem C41_flip (fs : List (ℕ × ℕ × ℕ)) (hc : Closed fs) : Closed (Gen.flip fs) := by
  rw [closed_iff] at hc ⊢
  intro h hh
  have := hc h hh
  have e : bd h (Gen.flip fs) = - bd h fs := by
    unfold Gen.flip
    rw [bd_map]
    unfold bd
    rw [← neg_one_mul, ← List.sum_map_mul_left]
    congr 1
    apply List.map_congr_left
    intro f _
    rw [hh f.1 f.2.2, hh f.2.2 f.2.1, hh f.2.1 f.1]; ring
  rw [e, this, neg_zero]

/-! ## Capsule -/

private theorem bd_capsuleRow {h : ℕ → ℕ → ℤ} (hh : ∀ a b, h a b = - h b a) (div i : ℕ) (hi : 1 ≤ i) :
    bd h (capsuleRow div i) = ringSum h (1 + div * i) div - ringSum h (1 + div * (i - 1)) div := by
  obtain ⟨m, rfl⟩ := Nat.exists_eq_add_of_le' hi
  have key := bd_strip hh (1 + div * (m + 1)) div (fun i => i - div)
    (fun p => [(p.2, p.1 - div, p.2 - div), (p.2, p.1, p.1 - div)]) (by
      intro p
      simp only [bd_cons, bd_nil]
      rw [hh (p.1 - div) p.2, hh (p.1 - div) (p.2 - div), hh (p.2 - div) p.2]; ring)
  have e1 : capsuleRow div (m + 1) = (ring (1 + div * (m + 1)) div).flatMap
      (fun p => [(p.2, p.1 - div, p.2 - div), (p.2, p.1, p.1 - div)]) := by
    rw [ring_add, List.flatMap_map]
    unfold capsuleRow
    congr 1
    funext p
    simp only [Nat.add_comm]
  rw [e1, key]
  congr 1
  rw [ring_add, List.map_map, Nat.add_sub_cancel, ringSum_add]
  congr 1
  apply List.map_congr_left
  intro p _
  have : ∀ a, a + div * (m + 1) - div = a + div * m := by
    intro a; rw [Nat.mul_succ, ← Nat.add_assoc, Nat.add_sub_cancel]
  simp only [Function.comp, this]

private theorem capsule_antarctic (nv div : ℕ) (hd : 1 ≤ div) (hv : div + 2 ≤ nv) :
    ((List.range div).map fun t => (nv - 1, nv - (div + 1 - t), nv - (if t = 0 then 2 else div + 1 - t + 1))) =
    (ring (nv - div - 1) div).map fun p => (nv - 1, p.1, p.2) := by
  unfold ring
  rw [List.map_map]
  apply List.map_congr_left
  intro t ht
  have := List.mem_range.1 ht
  simp only [Function.comp, Prod.mk.injEq, true_and]
  refine ⟨by omega, ?_⟩
  split_ifs <;> omega

/-- Capsule, for every division count that is a positive multiple of four: closed, filled, and the number of
vertices assigned is the number allocated. -/
theorem C41_capsule (m : ℕ) (hm : 1 ≤ m) :
    Closed (capsule (4 * m)).face ∧ Filled (capsule (4 * m)) ∧ capsuleAssigned (4 * m) = (capsule (4 * m)).nv := by
  have hnv : 4 * m * (4 * m) / 2 = 2 * m * (4 * m) := by
    rw [show 4 * m * (4 * m) = 2 * (2 * m * (4 * m)) by ring, Nat.mul_div_cancel_left _ (by norm_num)]
  have hnh : 4 * m / 4 * 2 - 1 = 2 * m - 1 := by rw [Nat.mul_div_cancel_left _ (by norm_num)]; omega
  have h4 : 4 * m ≤ 2 * m * (4 * m) := by nlinarith
  have hlast : 2 * m * (4 * m) + 2 - 4 * m - 1 = 1 + 4 * m * (2 * m - 1) := by
    obtain ⟨k, rfl⟩ := Nat.exists_eq_add_of_le' hm
    have : 2 * (k + 1) * (4 * (k + 1)) = 4 * (k + 1) * (2 * (k + 1) - 1) + 4 * (k + 1) := by
      rw [show 2 * (k + 1) - 1 = 2 * k + 1 by omega]; ring
    omega
  refine ⟨?_, ⟨?_, ?_⟩, ?_⟩
  · rw [closed_iff]
    intro h hh
    unfold capsule
    simp only [hnv, hnh]
    rw [capsule_antarctic _ _ (by omega) (by omega), bd_append, bd_append, bd_apex hh, bd_apex' hh, bd_flatMap, sum_range'_list]
    have e : ∀ t ∈ Finset.range (2 * m - 1), bd h (capsuleRow (4 * m) (1 + t)) =
        ringSum h (1 + 4 * m * (t + 1)) (4 * m) - ringSum h (1 + 4 * m * t) (4 * m) := by
      intro t _
      rw [bd_capsuleRow hh _ _ (by omega), show 1 + t = t + 1 by omega, Nat.add_sub_cancel]
    rw [Finset.sum_congr rfl e, Finset.sum_range_sub (fun t => ringSum h (1 + 4 * m * t) (4 * m)), hlast]
    simp only [mul_zero, add_zero]
    ring
  · simp only [capsule, hnv, hnh, List.length_append, List.length_map, length_ring, List.length_range]
    rw [length_flatMap_const _ _ (4 * m * 2), List.length_range']
    · obtain ⟨k, rfl⟩ := Nat.exists_eq_add_of_le' hm
      rw [show 2 * (k + 1) - 1 = 2 * k + 1 by omega]; ring
    · intro i _
      unfold capsuleRow
      rw [length_flatMap_const _ _ 2 (fun _ _ => rfl), length_ring]
  · intro f hf
    simp only [capsule, hnv, hnh, List.mem_append, List.mem_map, List.mem_flatMap, List.mem_range'_1, List.mem_range, capsuleRow] at hf ⊢
    rcases hf with (⟨p, hp, rfl⟩ | ⟨i, hi, p, hp, hf⟩) | ⟨t, ht, rfl⟩
    · have := mem_ring hp; dsimp only; omega
    · have h1 := mem_ring hp
      have h2 : 4 * m * i + 4 * m ≤ 2 * m * (4 * m) := by
        calc 4 * m * i + 4 * m = 4 * m * (i + 1) := by ring
          _ ≤ 4 * m * (2 * m) := Nat.mul_le_mul_left _ (by omega)
          _ = 2 * m * (4 * m) := by ring
      simp only [List.mem_cons, List.not_mem_nil, or_false] at hf
      rcases hf with rfl | rfl <;> dsimp only <;> omega
    · dsimp only; split_ifs <;> omega
  · unfold capsuleAssigned capsule
    simp only [hnv]
    rw [Nat.mul_div_cancel_left _ (by norm_num)]

/-- For the other division counts from two the conversion refers to a vertex that was never assigned (the pole
`nv-1`), and fewer faces are written than allocated. -/
theorem C41_capsule_unassigned (div : ℕ) (hd : 2 ≤ div) (h4 : div % 4 ≠ 0) :
    capsuleAssigned div < (capsule div).nv ∧ (∃ f ∈ (capsule div).face, capsuleAssigned div ≤ f.1) ∧
    (4 < div → (capsule div).face.length < (capsule div).nf) := by
  obtain ⟨q, r, hr, rfl⟩ : ∃ q r, r < 4 ∧ div = 4 * q + r := ⟨div / 4, div % 4, Nat.mod_lt _ (by norm_num), by omega⟩
  have hq : (4 * q + r) / 4 = q := by omega
  have hr0 : 1 ≤ r := by omega
  have hsq : (4 * q + r) * (4 * q + r) / 2 = 2 * q * (4 * q + r) + r * (4 * q + r) / 2 := by
    rw [show (4 * q + r) * (4 * q + r) = r * (4 * q + r) + 2 * (2 * q * (4 * q + r)) by ring, Nat.add_mul_div_left _ _ (by norm_num)]
    ring
  have hpos : 1 ≤ r * (4 * q + r) / 2 := by
    rw [Nat.le_div_iff_mul_le (by norm_num)]
    have := Nat.mul_le_mul hr0 hd
    omega
  refine ⟨?_, ?_, ?_⟩
  · unfold capsuleAssigned capsule
    simp only [hq, hsq]; omega
  · refine ⟨((4 * q + r) * (4 * q + r) / 2 + 2 - 1, (4 * q + r) * (4 * q + r) / 2 + 2 - (4 * q + r + 1 - 0),
      (4 * q + r) * (4 * q + r) / 2 + 2 - 2), ?_, ?_⟩
    · unfold capsule
      rw [List.mem_append]; right
      rw [List.mem_map]
      exact ⟨0, by simp; omega, rfl⟩
    · unfold capsuleAssigned
      simp only [hq, hsq]; omega
  · intro h4'
    have hq1 : 1 ≤ q := by omega
    simp only [capsule, hq, List.length_append, List.length_map, length_ring, List.length_range]
    rw [length_flatMap_const _ _ ((4 * q + r) * 2), List.length_range']
    · have : (q * 2 - 1) * ((4 * q + r) * 2) + (4 * q + r) * 2 = q * 2 * ((4 * q + r) * 2) := by
        obtain ⟨k, rfl⟩ := Nat.exists_eq_add_of_le' hq1
        rw [show (k + 1) * 2 - 1 = 2 * k + 1 by omega]; ring
      have h2 : q * 2 * ((4 * q + r) * 2) < (4 * q + r) * (4 * q + r) := by nlinarith
      omega
    · intro i _
      unfold capsuleRow
      rw [length_flatMap_const _ _ 2 (fun _ _ => rfl), length_ring]

/-! ## Sphere and ellipsoid: filled, but the caps are turned inside out -/

private theorem length_upper (div : ℕ) : (sphereUpper div).length = div + (div - 2) * (div * 2) := by
  unfold sphereUpper
  rw [List.length_append, List.length_map, length_ring, length_flatMap_const _ _ (div * 2), List.length_range']
  intro i _
  unfold sphereRow
  rw [length_flatMap_const _ _ 2 (fun _ _ => rfl), length_ring]

theorem Gen.sphere_last (div : ℕ) (hd : 2 ≤ div) :
    (sphere div).face = sphereUpper div ++ (ring ((div - 2) * div + 1) div).map fun p => (p.1, div * (div - 1) + 1, p.2) := by
  obtain ⟨m, rfl⟩ := Nat.exists_eq_add_of_le' hd
  unfold sphere
  simp only [length_upper]
  have e : (m + 2) * (m + 2 - 1) = m * (m + 2) + (m + 2) := by
    rw [show m + 2 - 1 = m + 1 by omega]; ring
  have e2 : (m + 2) * (m + 2 - 1) * 2 - ((m + 2) + (m + 2 - 2) * ((m + 2) * 2)) = m + 2 := by
    rw [show (m + 2) * (m + 2 - 1) * 2 = (m + 2) + ((m + 2) + (m + 2 - 2) * ((m + 2) * 2)) by
      rw [e, show m + 2 - 2 = m by omega]; ring]
    omega
  rw [e2]
  congr 1
  unfold ring
  rw [List.map_map]
  apply List.map_congr_left
  intro t ht
  have := List.mem_range.1 ht
  rw [e]
  clear e2 e
  simp only [Function.comp, Prod.mk.injEq, show m + 2 - 2 = m by omega]
  generalize m * (m + 2) = c
  refine ⟨by omega, by omega, ?_⟩
  split_ifs <;> omega

/-- Sphere and ellipsoid: every allocated face is written and refers to allocated vertices. -/
theorem C41_sphere_filled (div : ℕ) (hd : 2 ≤ div) : Filled (sphere div) := by
  have hnv : (sphere div).nv = (div - 2) * div + div + 2 := by
    obtain ⟨m, rfl⟩ := Nat.exists_eq_add_of_le' hd
    unfold sphere
    simp only [show m + 2 - 1 = m + 1 by omega, show m + 2 - 2 = m by omega]; ring
  refine ⟨?_, ?_⟩
  · rw [sphere_last div hd, List.length_append, length_upper, List.length_map, length_ring]
    obtain ⟨m, rfl⟩ := Nat.exists_eq_add_of_le' hd
    unfold sphere
    simp only [show m + 2 - 1 = m + 1 by omega, show m + 2 - 2 = m by omega]; ring
  · intro f hf
    rw [hnv]
    rw [sphere_last div hd] at hf
    have hdd : div * (div - 1) + 1 = (div - 2) * div + div + 1 := by
      have := hnv; unfold sphere at this; simp only [] at this; omega
    rw [hdd] at hf
    simp only [sphereUpper, List.mem_append, List.mem_map, List.mem_flatMap, List.mem_range'_1, sphereRow] at hf
    rcases hf with (⟨p, hp, rfl⟩ | ⟨i, hi, p, hp, hf⟩) | ⟨p, hp, rfl⟩
    · have := mem_ring hp; dsimp only; omega
    · have h1 := mem_ring hp
      have h2 : (i - 1) * div ≤ (div - 2) * div := Nat.mul_le_mul_right _ (by omega)
      simp only [List.mem_cons, List.not_mem_nil, or_false] at hf
      rcases hf with rfl | rfl <;> dsimp only <;> omega
    · have := mem_ring hp; dsimp only; omega

private theorem bd_sphereRow {h : ℕ → ℕ → ℤ} (hh : ∀ a b, h a b = - h b a) (div t : ℕ) :
    bd h (sphereRow div (t + 2)) = ringSum h (1 + div * (t + 1)) div - ringSum h (1 + div * t) div := by
  have key := bd_strip hh (1 + div * (t + 1)) div (fun i => i - div)
    (fun p => [(p.2, p.1, p.1 - div), (p.2, p.1 - div, p.2 - div)]) (by
      intro p
      simp only [bd_cons, bd_nil]
      rw [hh (p.1 - div) p.2, hh (p.1 - div) (p.2 - div), hh (p.2 - div) p.2]; ring)
  unfold sphereRow
  rw [show (t + 2 - 1) * div + 1 = 1 + div * (t + 1) by rw [show t + 2 - 1 = t + 1 by omega]; ring, key]
  congr 1
  rw [ring_add, List.map_map, ringSum_add]
  congr 1
  apply List.map_congr_left
  intro p _
  have : ∀ a, a + div * (t + 1) - div = a + div * t := by
    intro a; rw [Nat.mul_succ, ← Nat.add_assoc, Nat.add_sub_cancel]
  simp only [Function.comp, this]

/-- The boundary of the sphere mesh: twice the last parallel minus twice the first. -/
private theorem bd_sphere {h : ℕ → ℕ → ℤ} (hh : ∀ a b, h a b = - h b a) (div : ℕ) (hd : 2 ≤ div) :
    bd h (sphere div).face = 2 * ringSum h ((div - 2) * div + 1) div - 2 * ringSum h 1 div := by
  rw [sphere_last div hd, bd_append]
  unfold sphereUpper
  rw [bd_append, bd_apex' hh, bd_flatMap, sum_range'_list]
  have e : ∀ t ∈ Finset.range (div - 2), bd h (sphereRow div (2 + t)) =
      ringSum h (1 + div * (t + 1)) div - ringSum h (1 + div * t) div := by
    intro t _; rw [Nat.add_comm 2 t]; exact bd_sphereRow hh div t
  rw [Finset.sum_congr rfl e, Finset.sum_range_sub (fun t => ringSum h (1 + div * t) div)]
  have e2 : bd h ((ring ((div - 2) * div + 1) div).map fun p => (p.1, div * (div - 1) + 1, p.2)) = ringSum h ((div - 2) * div + 1) div := by
    rw [bd_map]
    have e := ring_shift ((div - 2) * div + 1) div (fun i => h i (div * (div - 1) + 1))
    have : ∀ p : ℕ × ℕ, h p.1 (div * (div - 1) + 1) + h (div * (div - 1) + 1) p.2 + h p.2 p.1 =
        h p.2 p.1 + (h p.1 (div * (div - 1) + 1) - h p.2 (div * (div - 1) + 1)) := by
      intro p; rw [hh (div * (div - 1) + 1) p.2]; ring
    simp only [this]
    rw [List.sum_map_add, sum_map_sub', e, sub_self, add_zero]; rfl
  rw [e2, mul_zero, add_zero, show 1 + div * (div - 2) = (div - 2) * div + 1 by ring]
  ring

/-- Indicator of the directed edge `(a, b)`, antisymmetrised. -/
private def ind (a b x y : ℕ) : ℤ := (if x = a ∧ y = b then 1 else 0) - (if x = b ∧ y = a then 1 else 0)

private theorem ind_anti (a b x y : ℕ) : ind a b x y = - ind a b y x := by
  unfold ind
  split_ifs <;> first | rfl | omega

private theorem ringSum_ind (lo n : ℕ) (hn : 3 ≤ n) : ringSum (ind lo (lo + 1)) lo n = 1 := by
  obtain ⟨m, rfl⟩ := Nat.exists_eq_add_of_le' hn
  unfold ringSum
  rw [show m + 3 = (m + 2) + 1 from rfl, sum_ring, Finset.sum_range_succ']
  rw [Finset.sum_eq_zero]
  · simp [ind]
  · intro t _
    unfold ind
    rw [if_neg (by omega), if_neg (by omega)]; rfl

private theorem ringSum_ind_far (a lo n : ℕ) (hn : a + 1 < lo) : ringSum (ind a (a + 1)) lo n = 0 := by
  unfold ringSum
  apply List.sum_eq_zero
  intro x hx
  rw [List.mem_map] at hx
  obtain ⟨p, hp, rfl⟩ := hx
  have := mem_ring hp
  unfold ind
  rw [if_neg (by omega), if_neg (by omega)]; rfl

/-- **Code disagreement.** `zSphere3DToPH` and `zEllips3DToPH` orient the two polar caps against the rest: for
every division count from three the mesh is not consistently oriented. -/
theorem C41_sphere_not_closed (div : ℕ) (hd : 3 ≤ div) : ¬ Closed (sphere div).face := by
  rw [closed_iff]
  intro H
  have h1 := H (ind 1 2) (ind_anti 1 2)
  rw [bd_sphere (ind_anti 1 2) div (by omega), ringSum_ind 1 div hd, ringSum_ind_far 1 _ _ ?_] at h1
  · norm_num at h1
  · have : 1 * 3 ≤ (div - 2) * div := Nat.mul_le_mul (by omega) hd
    omega

/-- Everything between the caps is consistent: reversing the faces of the two caps would close the mesh. -/
theorem C41_sphere_partial (div : ℕ) (hd : 2 ≤ div) :
    Closed (((ring 1 div).map fun p => (0, p.2, p.1)) ++ (List.range' 2 (div - 2)).flatMap (sphereRow div) ++
      (ring ((div - 2) * div + 1) div).map fun p => (p.1, p.2, div * (div - 1) + 1)) := by
  rw [closed_iff]
  intro h hh
  have h1 := bd_sphere hh div hd
  rw [sphere_last div hd] at h1
  unfold sphereUpper at h1
  simp only [bd_append] at h1 ⊢
  rw [bd_apex' hh] at h1
  rw [bd_apex hh]
  have e : bd h ((ring ((div - 2) * div + 1) div).map fun p => (p.1, p.2, div * (div - 1) + 1)) =
      - bd h ((ring ((div - 2) * div + 1) div).map fun p => (p.1, div * (div - 1) + 1, p.2)) := by
    rw [bd_map, bd_map, ← neg_one_mul, ← List.sum_map_mul_left]
    congr 1
    apply List.map_congr_left
    intro p _
    dsimp only
    rw [hh p.1 p.2, hh p.2 (div * (div - 1) + 1), hh (div * (div - 1) + 1) p.1]; ring
  have e2 : bd h ((ring ((div - 2) * div + 1) div).map fun p => (p.1, div * (div - 1) + 1, p.2)) = ringSum h ((div - 2) * div + 1) div := by
    rw [bd_map]
    have e := ring_shift ((div - 2) * div + 1) div (fun i => h i (div * (div - 1) + 1))
    have : ∀ p : ℕ × ℕ, h p.1 (div * (div - 1) + 1) + h (div * (div - 1) + 1) p.2 + h p.2 p.1 =
        h p.2 p.1 + (h p.1 (div * (div - 1) + 1) - h p.2 (div * (div - 1) + 1)) := by
      intro p; rw [hh (div * (div - 1) + 1) p.2]; ring
    simp only [this]
    rw [List.sum_map_add, sum_map_sub', e, sub_self, add_zero]; rfl
  rw [e2] at e h1
  rw [e]
  linarith

/-! ## Lathe: filled, but one cap is turned inside out -/

/-- Every allocated face of a lathed solid is written and refers to allocated vertices. -/
theorem C41_lathe_filled (n div : ℕ) (hn : 1 ≤ n) (hd : 1 ≤ div) : Filled (lathe n div) := by
  refine ⟨?_, ?_⟩
  · simp only [lathe, List.length_append, List.length_map, List.length_range']
    rw [length_flatMap_const _ _ (div * 2), List.length_range]
    · have : (n - 1) * (div * 2) = 2 * (n - 1) * div := by ring
      omega
    · intro p _
      rw [length_flatMap_const _ _ 2 (fun _ _ => rfl), length_ring]
  · have key : ∀ a b, a < n → b < div → a * div + b < n * div := by
      intro a b ha hb
      calc a * div + b < a * div + div := by omega
        _ = (a + 1) * div := by ring
        _ ≤ n * div := Nat.mul_le_mul_right _ ha
    intro f hf
    simp only [lathe, List.mem_append, List.mem_map, List.mem_flatMap, List.mem_range'_1, List.mem_range] at hf ⊢
    rcases hf with (⟨i, hi, q, hq, hf⟩ | ⟨j, hj, rfl⟩) | ⟨j, hj, rfl⟩
    · have h2 := mem_ring hq
      simp only [List.mem_cons, List.not_mem_nil, or_false] at hf
      rcases hf with rfl | rfl <;> exact ⟨key _ _ (by omega) (by omega), key _ _ (by omega) (by omega), key _ _ (by omega) (by omega)⟩
    · have h0 := key 0 0 (by omega) (by omega)
      have h1 := key 0 (j - 1) (by omega) (by omega)
      have h2 := key 0 j (by omega) (by omega)
      simp only [zero_mul, zero_add] at h0 h1 h2
      exact ⟨h0, h1, h2⟩
    · have h0 := key (n - 1) 0 (by omega) (by omega)
      have h1 := key (n - 1) (j - 1) (by omega) (by omega)
      have h2 := key (n - 1) j (by omega) (by omega)
      dsimp only; omega

private theorem bd_lathe {h : ℕ → ℕ → ℤ} (hh : ∀ a b, h a b = - h b a) (n div : ℕ) (hd : 2 ≤ div) :
    bd h (lathe n div).face = 2 * ringSum h ((n - 1) * div) div := by
  have cap : ∀ lo, bd h ((List.range' 2 (div - 2)).map fun j => (lo, lo + j - 1, lo + j)) = ringSum h lo div := by
    intro lo
    have := bd_fan hh lo div hd
    rw [show bd h ((List.range' 2 (div - 2)).map fun j => (lo, lo + j - 1, lo + j)) =
      - bd h ((List.range' (lo + 2) (div - 2)).map fun i => (lo, i, i - 1)) from ?_, this, neg_neg]
    rw [bd_map, bd_map, sum_range'_list, sum_range'_list, ← Finset.sum_neg_distrib]
    apply Finset.sum_congr rfl
    intro t _
    dsimp only
    rw [← add_assoc lo 2 t, hh lo (lo + 2 + t), hh (lo + 2 + t) (lo + 2 + t - 1), hh (lo + 2 + t - 1) lo]
    ring
  have cap0 := cap 0
  simp only [zero_add] at cap0
  unfold lathe
  simp only [bd_append]
  rw [cap0, cap, bd_flatMap, sum_range_list]
  have row : ∀ i ∈ Finset.range (n - 1), bd h ((ring 0 div).flatMap fun q =>
      [(i * div + q.1, i * div + q.2, (i + 1) * div + q.2), (i * div + q.1, (i + 1) * div + q.2, (i + 1) * div + q.1)]) =
      ringSum h ((i + 1) * div) div - ringSum h (i * div) div := by
    intro i _
    rw [bd_flatMap]
    have e : ∀ q : ℕ × ℕ, bd h [(i * div + q.1, i * div + q.2, (i + 1) * div + q.2), (i * div + q.1, (i + 1) * div + q.2, (i + 1) * div + q.1)] =
        h ((i + 1) * div + q.2) ((i + 1) * div + q.1) - h (i * div + q.2) (i * div + q.1) +
        (h (i * div + q.2) ((i + 1) * div + q.2) - h (i * div + q.1) ((i + 1) * div + q.1)) := by
      intro q
      simp only [bd_cons, bd_nil]
      rw [hh (i * div + q.1) (i * div + q.2), hh ((i + 1) * div + q.2) (i * div + q.1), hh ((i + 1) * div + q.1) (i * div + q.1)]
      ring
    simp only [e]
    rw [List.sum_map_add, sum_map_sub', sum_map_sub', ← ring_shift 0 div (fun j => h (i * div + j) ((i + 1) * div + j)), sub_self, add_zero]
    have r : ∀ k, ringSum h (k * div) div = ((ring 0 div).map fun q => h (k * div + q.2) (k * div + q.1)).sum := by
      intro k
      have := ringSum_add h 0 div (k * div)
      rw [zero_add] at this
      rw [this]
      simp only [Nat.add_comm]
    rw [r, r]
  rw [Finset.sum_congr rfl row, Finset.sum_range_sub (fun i => ringSum h (i * div) div)]
  simp only [zero_mul]; ring

/-- **Code disagreement.** `zPH3DCreateLathe` gives both end caps the same sense of rotation, so the mesh is not
consistently oriented; the final facet direction correction, which flips everything or nothing, cannot repair it. -/
theorem C41_lathe_not_closed (n div : ℕ) (hd : 3 ≤ div) :
    ¬ Closed (lathe n div).face ∧ ¬ Closed (Gen.flip (lathe n div).face) := by
  have h1 : ¬ Closed (lathe n div).face := by
    rw [closed_iff]
    intro H
    have h1 := H (ind ((n - 1) * div) ((n - 1) * div + 1)) (ind_anti _ _)
    rw [bd_lathe (ind_anti _ _) n div (by omega), ringSum_ind _ div hd] at h1
    norm_num at h1
  refine ⟨h1, fun h => h1 ?_⟩
  have := C41_flip _ h
  have e : Gen.flip (Gen.flip (lathe n div).face) = (lathe n div).face := by
    unfold Gen.flip
    rw [List.map_map]
    exact List.map_id' _
  rwa [e] at this

/-- **Code disagreement.** A division count of one, which `zShape3DDivFromZTK` accepts from a file, makes the
conversions write more faces than they allocate. -/
theorem C41_div_one_overflow :
    (cyl 1).nf < (cyl 1).face.length ∧ (cone 1).nf < (cone 1).face.length ∧ (sphere 1).nf < (sphere 1).face.length := by
  decide

/-! ## Non-vacuity -/

example : Closed (cyl 32).face ∧ (cyl 32).nf = 124 := ⟨(C41_cyl 32 (by norm_num)).1, rfl⟩
example : Closed (capsule 32).face := (C41_capsule 8 (by norm_num)).1
example : capsuleAssigned 30 < (capsule 30).nv := (C41_capsule_unassigned 30 (by norm_num) (by norm_num)).1
example : (sphere 4).face.length = 24 ∧ ¬ Closed (sphere 4).face := ⟨by decide, C41_sphere_not_closed 4 (by norm_num)⟩

end Zeo

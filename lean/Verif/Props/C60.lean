import Verif.Model.PCA
import Verif.Props.C59
import Verif.Props.C35
import Verif.Lemmas.Triangle
import Verif.Spec.Geometry

/-! # C60: barycenter, covariance, principal axes and mean plane of a set of points

src/zeo_vec3d_pca.c. The set of points is given by what it shows (`Data.Shows`, see C35). -/

namespace Zeo
open Matrix Data

/-- The mean of a quantity over a list of points. -/
noncomputable def Spec.mean (f : Vec3 ℝ → ℝ) (xs : List (Vec3 ℝ)) : ℝ := (xs.map f).sum / xs.length

variable {τ : ℝ}

private theorem sum_foldl {σ : Type*} (φ : σ → ℝ) (g : Vec3 ℝ → ℝ) (f : σ → Vec3 ℝ → σ) (h : ∀ s v, φ (f s v) = φ s + g v)
    (xs : List (Vec3 ℝ)) : ∀ s, φ (xs.foldl f s) = φ s + (xs.map g).sum := by
  induction xs with
  | nil => intro s; simp
  | cons v xs ih => intro s; rw [List.foldl_cons, ih, h, List.map_cons, List.sum_cons]; ring

private theorem sum_lin (a b : ℝ) (f g : Vec3 ℝ → ℝ) (xs : List (Vec3 ℝ)) :
    (xs.map fun v => a * f v + b * g v).sum = a * (xs.map f).sum + b * (xs.map g).sum := by
  induction xs with
  | nil => simp
  | cons v xs ih => simp only [List.map_cons, List.sum_cons, ih]; ring

private theorem sum_const (a : ℝ) (xs : List (Vec3 ℝ)) : (xs.map fun _ => a).sum = xs.length * a := by
  induction xs with
  | nil => simp
  | cons v xs ih => simp only [List.map_cons, List.sum_cons, ih, List.length_cons]; push_cast; ring

theorem Spec.mean_lin (a b : ℝ) (f g : Vec3 ℝ → ℝ) (xs : List (Vec3 ℝ)) :
    Spec.mean (fun v => a * f v + b * g v) xs = a * Spec.mean f xs + b * Spec.mean g xs := by
  unfold Spec.mean; rw [sum_lin]; ring

theorem Spec.mean_const (a : ℝ) {xs : List (Vec3 ℝ)} (h : xs ≠ []) : Spec.mean (fun _ => a) xs = a := by
  have : (xs.length : ℝ) ≠ 0 := by simpa using h
  unfold Spec.mean; rw [sum_const]; field_simp

theorem Spec.mean_congr {f g : Vec3 ℝ → ℝ} (h : ∀ v, f v = g v) (xs : List (Vec3 ℝ)) : Spec.mean f xs = Spec.mean g xs := by
  rw [show f = g from funext h]

theorem Spec.mean_mono {f g : Vec3 ℝ → ℝ} (xs : List (Vec3 ℝ)) (h : ∀ v ∈ xs, f v ≤ g v) : Spec.mean f xs ≤ Spec.mean g xs := by
  unfold Spec.mean
  exact div_le_div_of_nonneg_right (List.sum_le_sum h) (by positivity)

section
variable {d : Data (Vec3 ℝ)} {xs : List (Vec3 ℝ)}

private theorem isEmpty_shows (h : d.WF) (hs : d.Shows xs) : d.isEmpty = true ↔ xs = [] := by
  rw [isEmpty_iff h, C35_shows_unique d _ _ h.shows hs]

private theorem size_shows (h : d.WF) (hs : d.Shows xs) : d.size = xs.length := by
  rw [size_eq h, C35_shows_unique d _ _ h.shows hs]

private theorem forEach_shows {σ : Type*} (f : σ → Vec3 ℝ → σ) (s : σ) (h : d.WF) (hs : d.Shows xs) : (d.forEach f s).2 = xs.foldl f s := by
  rw [(h.forEach f s).1, C35_shows_unique d _ _ h.shows hs]

private theorem len_ne (hx : xs ≠ []) : (xs.length : ℝ) ≠ 0 := by simpa using hx

/-- Every routine reports failure on the empty set. -/
theorem C60_empty (h : d.WF) (hs : d.Shows []) (c junk : Vec3 ℝ) :
    d.barycenter = none ∧ d.cov c = none ∧ d.baryCov junk = none ∧ d.pca τ c = none ∧ d.baryPCA τ junk = none ∧
    d.pcaFrame τ junk = none ∧ d.meanNormal τ c = none ∧ d.meanPlane τ junk = none := by
  have := (isEmpty_shows h hs).2 rfl
  simp [barycenter, cov, baryCov, pca, baryPCA, pcaFrame, meanNormal, meanPlane, this]

private theorem bary_eq (h : d.WF) (hs : d.Shows xs) (hx : xs ≠ []) :
    d.barycenter = some ⟨Spec.mean Vec3.x xs, Spec.mean Vec3.y xs, Spec.mean Vec3.z xs⟩ := by
  have he : ¬ d.isEmpty = true := fun e => hx ((isEmpty_shows h hs).1 e)
  have hn := len_ne hx
  simp only [barycenter, if_neg he, forEach_shows _ _ h hs, size_shows h hs, Vec3.div, if_neg hn, Option.some.injEq]
  ext <;> simp only [Vec3.mul, Spec.mean]
  · rw [sum_foldl Vec3.x Vec3.x _ (fun _ _ => rfl)]; simp only [zeo]; ring
  · rw [sum_foldl Vec3.y Vec3.y _ (fun _ _ => rfl)]; simp only [zeo]; ring
  · rw [sum_foldl Vec3.z Vec3.z _ (fun _ _ => rfl)]; simp only [zeo]; ring

/-- **C60** (`zVec3DDataBarycenter`): the mean of the points, which is the point with the least mean squared
distance from them. -/
theorem C60_barycenter (h : d.WF) (hs : d.Shows xs) (hx : xs ≠ []) :
    ∃ c, d.barycenter = some c ∧ (∀ i, c.toFin i = Spec.mean (fun v => v.toFin i) xs) ∧
      ∀ q : Vec3 ℝ, Spec.mean (fun v => Spec.sqd v q) xs = Spec.mean (fun v => Spec.sqd v c) xs + Spec.sqd q c := by
  refine ⟨_, bary_eq h hs hx, ?_, ?_⟩
  · intro i; fin_cases i <;> rfl
  · intro q
    set c : Vec3 ℝ := ⟨Spec.mean Vec3.x xs, Spec.mean Vec3.y xs, Spec.mean Vec3.z xs⟩ with hc
    have e : ∀ v, Spec.sqd v q = 1 * Spec.sqd v c + 1 * (1 * Spec.sqd q c + 1 * (1 * (2 * (c.x - q.x) * v.x + 2 * (c.y - q.y) * v.y) + 1 *
        (2 * (c.z - q.z) * v.z + -(2 * (c.x - q.x) * c.x + 2 * (c.y - q.y) * c.y + 2 * (c.z - q.z) * c.z) * 1))) := by
      intro v; simp only [Spec.sqd]; ring
    rw [Spec.mean_congr e, Spec.mean_lin, Spec.mean_lin, Spec.mean_lin, Spec.mean_lin, Spec.mean_lin, Spec.mean_const _ hx, Spec.mean_const _ hx]
    have e1 : Spec.mean Vec3.x xs = c.x := rfl
    have e2 : Spec.mean Vec3.y xs = c.y := rfl
    have e3 : Spec.mean Vec3.z xs = c.z := rfl
    rw [e1, e2, e3]; ring

/-- The covariance matrix as a bilinear form. -/
private theorem cov_bilin (h : d.WF) (hs : d.Shows xs) (hx : xs ≠ []) (c : Vec3 ℝ) :
    ∃ m, d.cov c = some m ∧ ∀ y x : Vec3 ℝ, y.inner (m.mulVec x) = Spec.mean (fun v => (v.sub c).inner y * (v.sub c).inner x) xs := by
  have he : ¬ d.isEmpty = true := fun e => hx ((isEmpty_shows h hs).1 e)
  have hn := len_ne hx
  refine ⟨_, by simp only [cov, if_neg he, forEach_shows _ _ h hs, size_shows h hs, Mat3.div, if_neg hn]; rfl, ?_⟩
  intro y x
  have hm : ∀ M : Mat3 ℝ, y.inner ((M.mul (1 / (xs.length : ℝ))).mulVec x) = (y.inner (M.mulVec x)) / xs.length := by
    intro M; simp only [zeo]; ring
  rw [hm, sum_foldl (fun M => y.inner (Mat3.mulVec M x)) (fun v => (v.sub c).inner y * (v.sub c).inner x) _ (by
    intro s v; simp only [zeo]; ring)]
  unfold Spec.mean
  simp only [zeo]; ring

private theorem ent_bilin (m : Mat3 ℝ) (i j : Fin 3) :
    m.toMatrix i j = (Vec3.mk (if i = 0 then 1 else 0) (if i = 1 then 1 else 0) (if i = 2 then 1 else 0)).inner
      (m.mulVec (Vec3.mk (if j = 0 then 1 else 0) (if j = 1 then 1 else 0) (if j = 2 then 1 else 0))) := by
  fin_cases i <;> fin_cases j <;> simp [Mat3.toMatrix, zeo]

private theorem inner_ax (w : Vec3 ℝ) (i : Fin 3) :
    w.inner (Vec3.mk (if i = 0 then 1 else 0) (if i = 1 then 1 else 0) (if i = 2 then 1 else 0)) = w.toFin i := by
  fin_cases i <;> simp [Vec3.toFin, zeo]

/-- **C60** (`zVec3DDataCov`): the variance-covariance matrix of the points about the given one. -/
theorem C60_cov (h : d.WF) (hs : d.Shows xs) (hx : xs ≠ []) (c : Vec3 ℝ) :
    ∃ m, d.cov c = some m ∧ ∀ i j, m.toMatrix i j = Spec.mean (fun v => (v.toFin i - c.toFin i) * (v.toFin j - c.toFin j)) xs := by
  obtain ⟨m, hm, hb⟩ := cov_bilin h hs hx c
  refine ⟨m, hm, fun i j => ?_⟩
  rw [ent_bilin, hb]
  refine Spec.mean_congr (fun v => ?_) xs
  rw [inner_ax, inner_ax]
  fin_cases i <;> fin_cases j <;> rfl

/-- **C60** (`zVec3DDataBaryCov`): exactly the barycenter and the covariance about it, although computed in a
single pass. -/
theorem C60_baryCov (h : d.WF) (hs : d.Shows xs) (hx : xs ≠ []) (junk : Vec3 ℝ) :
    ∃ c m, d.baryCov junk = some (c, m) ∧ d.barycenter = some c ∧ d.cov c = some m := by
  have he : ¬ d.isEmpty = true := fun e => hx ((isEmpty_shows h hs).1 e)
  have hn := len_ne hx
  set c : Vec3 ℝ := ⟨Spec.mean Vec3.x xs, Spec.mean Vec3.y xs, Spec.mean Vec3.z xs⟩ with hc
  obtain ⟨m, hm, hb⟩ := C60_cov h hs hx c
  refine ⟨c, m, ?_, bary_eq h hs hx, hm⟩
  simp only [baryCov, if_neg he, forEach_shows _ _ h hs, size_shows h hs, Mat3.div, Vec3.div, if_neg hn]
  generalize hS : List.foldl (fun (s : Vec3 ℝ × Mat3 ℝ) v => (s.1.add v, s.2.addDyad v v)) (Vec3.zero, Mat3.zero) xs = S
  have hS1 : S.1 = ⟨(xs.map Vec3.x).sum, (xs.map Vec3.y).sum, (xs.map Vec3.z).sum⟩ := by
    rw [← hS]
    ext
    · rw [sum_foldl (fun s : Vec3 ℝ × Mat3 ℝ => s.1.x) Vec3.x _ (fun _ _ => rfl)]; simp [zeo]
    · rw [sum_foldl (fun s : Vec3 ℝ × Mat3 ℝ => s.1.y) Vec3.y _ (fun _ _ => rfl)]; simp [zeo]
    · rw [sum_foldl (fun s : Vec3 ℝ × Mat3 ℝ => s.1.z) Vec3.z _ (fun _ _ => rfl)]; simp [zeo]
  have hc' : S.1.mul (1 / (xs.length : ℝ)) = c := by
    rw [hS1, hc]; ext <;> simp only [zeo, Spec.mean] <;> ring
  rw [hc']
  have hS2 : ∀ i j, S.2.toMatrix i j = (xs.map fun v => v.toFin i * v.toFin j).sum := by
    intro i j
    rw [← hS, sum_foldl (fun s : Vec3 ℝ × Mat3 ℝ => s.2.toMatrix i j) (fun v => v.toFin i * v.toFin j)]
    · fin_cases i <;> fin_cases j <;> simp [Mat3.toMatrix, zeo]
    · intro s v
      show (s.2.addDyad v v).toMatrix i j = _
      rw [(C06_mat3_updates s.2 0 v v v).1]; rfl
  have hmean : ∀ i, Spec.mean (fun v => v.toFin i) xs = c.toFin i := by intro i; fin_cases i <;> rfl
  have key : (S.2.subDyad S.1 c).mul (1 / (xs.length : ℝ)) = m := by
    apply Mat3.toMatrix_injective
    ext i j
    rw [hb]
    have e : ∀ v : Vec3 ℝ, (v.toFin i - c.toFin i) * (v.toFin j - c.toFin j) = 1 * (v.toFin i * v.toFin j) + 1 * (-c.toFin j * v.toFin i + 1 *
        (-c.toFin i * v.toFin j + c.toFin i * c.toFin j * 1)) := by intro v; ring
    rw [Spec.mean_congr e, Spec.mean_lin, Spec.mean_lin, Spec.mean_lin, Spec.mean_const _ hx, hmean, hmean]
    have hmul : ((S.2.subDyad S.1 c).mul (1 / (xs.length : ℝ))).toMatrix i j = (1 / (xs.length : ℝ)) * (S.2.subDyad S.1 c).toMatrix i j := by
      fin_cases i <;> fin_cases j <;> simp [Mat3.toMatrix, zeo]
    rw [hmul, (C06_mat3_updates S.2 0 S.1 c c).2.1]
    have hS1' : S.1.toFin i = xs.length * c.toFin i := by
      rw [← hc']; fin_cases i <;> simp [Vec3.toFin, zeo] <;> field_simp
    simp only [Matrix.sub_apply, vecMulVec_apply]
    rw [hS2, hS1', Spec.mean]
    field_simp
    ring
  rw [key]

private theorem quad_col (pa m : Mat3 ℝ) (i j : Fin 3) : (pa.toMatrixᵀ * m.toMatrix * pa.toMatrix) i j = (pa.v i).inner (m.mulVec (pa.v j)) := by
  rcases (by decide : ∀ i : Fin 3, i = 0 ∨ i = 1 ∨ i = 2) i with rfl | rfl | rfl <;>
  rcases (by decide : ∀ i : Fin 3, i = 0 ∨ i = 1 ∨ i = 2) j with rfl | rfl | rfl <;>
  simp [Matrix.mul_apply, Fin.sum_univ_three, Mat3.toMatrix, Mat3.v, zeo] <;> ring

private theorem cov_symm (h : d.WF) (hs : d.Shows xs) (hx : xs ≠ []) {c : Vec3 ℝ} {m : Mat3 ℝ} (hm : d.cov c = some m) : m.toMatrix.IsSymm := by
  obtain ⟨m', hm', hb⟩ := C60_cov h hs hx c
  rw [hm] at hm'
  obtain rfl := Option.some.inj hm'
  ext i j
  rw [Matrix.transpose_apply, hb, hb]
  exact Spec.mean_congr (fun v => mul_comm _ _) xs

/-- **C60** (`zVec3DDataPCA`): the principal axes form a rotation matrix; the i-th principal component is the
variance of the points about the center along the i-th axis, and the covariances between different axes vanish
up to the tolerance. -/
theorem C60_pca (hτ : 0 < τ) (h : d.WF) (hs : d.Shows xs) (hx : xs ≠ []) (c : Vec3 ℝ) :
    ∃ pc pa, d.pca τ c = some (pc, pa) ∧ pa.IsRot ∧
      (∀ i, pc.toFin i = Spec.mean (fun v => (v.sub c).inner (pa.v i) ^ 2) xs) ∧
      ∀ i j, i ≠ j → |Spec.mean (fun v => (v.sub c).inner (pa.v i) * (v.sub c).inner (pa.v j)) xs| ≤ τ := by
  obtain ⟨m, hm, hb⟩ := cov_bilin h hs hx c
  obtain ⟨pc, pa, he, hR, hd, ho⟩ := C59_symEig hτ m (cov_symm h hs hx hm)
  refine ⟨pc, pa, by rw [pca, hm]; exact he, hR, fun i => ?_, fun i j hij => ?_⟩
  · rw [← hd i, quad_col, hb]; exact Spec.mean_congr (fun v => (pow_two _).symm) xs
  · have := ho i j hij; rwa [quad_col, hb] at this

/-- **C60** (`zVec3DDataBaryPCA`): the barycenter and the principal axes about it. -/
theorem C60_baryPCA (hτ : 0 < τ) (h : d.WF) (hs : d.Shows xs) (hx : xs ≠ []) (junk : Vec3 ℝ) :
    ∃ c pc pa, d.baryPCA τ junk = some (c, pc, pa) ∧ d.barycenter = some c ∧ d.pca τ c = some (pc, pa) := by
  obtain ⟨c, m, h1, h2, h3⟩ := C60_baryCov h hs hx junk
  obtain ⟨pc, pa, h4, -⟩ := C60_pca hτ h hs hx c
  refine ⟨c, pc, pa, ?_, h2, h4⟩
  rw [pca, h3, Option.bind_some] at h4
  rw [baryPCA, h1, Option.bind_some, h4]; rfl

/-- **C60** (`zVec3DDataPCAFrame`): a right-handed frame at the barycenter; in its coordinates the points have
mean zero, and covariances zero up to the tolerance. -/
theorem C60_pcaFrame (hτ : 0 < τ) (h : d.WF) (hs : d.Shows xs) (hx : xs ≠ []) (junk : Vec3 ℝ) :
    ∃ f, d.pcaFrame τ junk = some f ∧ d.barycenter = some f.pos ∧ f.att.IsRot ∧
      (∀ i, Spec.mean (fun v => (f.xformInv v).toFin i) xs = 0) ∧
      ∀ i j, i ≠ j → |Spec.mean (fun v => (f.xformInv v).toFin i * (f.xformInv v).toFin j) xs| ≤ τ := by
  obtain ⟨c, pc, pa, h1, h2, h3⟩ := C60_baryPCA hτ h hs hx junk
  obtain ⟨pc', pa', h3', hR, -, ho⟩ := C60_pca hτ h hs hx c
  rw [h3] at h3'
  obtain ⟨rfl, rfl⟩ := Prod.mk.inj (Option.some.inj h3')
  have hz : pa.x.outer pa.y = pa.z := by
    obtain ⟨-, -, h7, h8, h9⟩ := hR.cof
    ext <;> simp only [Vec3.outer] <;> linarith
  have hx' : ∀ v i, ((⟨c, pa⟩ : Frame3 ℝ).xformInv v).toFin i = (v.sub c).inner (pa.v i) := by
    intro v i
    rcases (by decide : ∀ i : Fin 3, i = 0 ∨ i = 1 ∨ i = 2) i with rfl | rfl | rfl <;>
      simp [Frame3.xformInv, Vec3.toFin, zeo, Mat3.v] <;> ring
  refine ⟨⟨c, pa⟩, by rw [pcaFrame, h1, Option.map_some, hz], h2, hR, fun i => ?_, fun i j hij => ?_⟩
  · rw [Spec.mean_congr (fun v => hx' v i)]
    rw [bary_eq h hs hx] at h2
    have hc := Option.some.inj h2
    have e : ∀ v : Vec3 ℝ, (v.sub c).inner (pa.v i) = 1 * ((pa.v i).x * v.x + (pa.v i).y * v.y) + 1 * ((pa.v i).z * v.z + -(c.inner (pa.v i)) * 1) := by
      intro v; simp only [zeo]; ring
    rw [Spec.mean_congr e, Spec.mean_lin, Spec.mean_lin, Spec.mean_lin, Spec.mean_const _ hx, ← hc]
    simp only [zeo]; ring
  · rw [Spec.mean_congr (fun v => by rw [hx' v i, hx' v j])]; exact ho i j hij

/-- **C60** (`zVec3DDataMeanNormal`): the unit vector along which the points spread least about the center, up to
twice the tolerance. -/
theorem C60_meanNormal (hτ : 0 < τ) (h : d.WF) (hs : d.Shows xs) (hx : xs ≠ []) (c : Vec3 ℝ) :
    ∃ n, d.meanNormal τ c = some n ∧ n.sqrNorm = 1 ∧ ∀ x : Vec3 ℝ, x.sqrNorm = 1 →
      Spec.mean (fun v => (v.sub c).inner n ^ 2) xs ≤ Spec.mean (fun v => (v.sub c).inner x ^ 2) xs + 2 * τ := by
  obtain ⟨m, hm, hb⟩ := cov_bilin h hs hx c
  obtain ⟨n, hn, h1, h2⟩ := C59_symEigMin hτ m (cov_symm h hs hx hm)
  refine ⟨n, ?_, h1, fun x hx1 => ?_⟩
  · rw [meanNormal, pca, hm]; exact hn
  · have := h2 x hx1
    rw [hb, hb] at this
    simpa only [pow_two] using this

private theorem create_unit (hτ : 0 < τ) (hτ2 : τ ≤ 1 / 2) (o n : Vec3 ℝ) (hn : n.sqrNorm = 1) : Plane3.create τ o n = some ⟨o, n⟩ := by
  have hn' : n.x * n.x + n.y * n.y + n.z * n.z = 1 := hn
  have ht : ¬ n.isTol τ := by
    rintro ⟨a, b, c⟩
    have a := abs_le.1 a; have b := abs_le.1 b; have c := abs_le.1 c
    nlinarith
  have hN : n.norm = 1 := by
    have : n.norm = √n.sqrNorm := rfl
    rw [this, hn, Real.sqrt_one]
  rw [Plane3.create, if_neg ht, Vec3.normalize, if_neg ht]
  simp only [Vec3.normalizeNC, hN, Option.some.injEq, Plane3.mk.injEq, true_and]
  ext <;> simp only [zeo] <;> ring

/-- **C60** (`zVec3DDataMeanPlane`): the plane through the barycenter whose mean squared distance from the points
is the least of all planes, up to twice the tolerance. -/
theorem C60_meanPlane (hτ : 0 < τ) (hτ2 : τ ≤ 1 / 2) (h : d.WF) (hs : d.Shows xs) (hx : xs ≠ []) (junk : Vec3 ℝ) :
    ∃ c pl, d.meanPlane τ junk = some (c, pl) ∧ d.barycenter = some c ∧ pl.org = c ∧ pl.norm.sqrNorm = 1 ∧
      ∀ q x : Vec3 ℝ, x.sqrNorm = 1 →
        Spec.mean (fun v => (v.sub c).inner pl.norm ^ 2) xs ≤ Spec.mean (fun v => (v.sub q).inner x ^ 2) xs + 2 * τ := by
  obtain ⟨c, pc, pa, h1, h2, h3⟩ := C60_baryPCA hτ h hs hx junk
  obtain ⟨n, hn, hu, hopt⟩ := C60_meanNormal hτ h hs hx c
  have hn' : pa.v (eigMinID pc) = n := by
    rw [meanNormal, h3] at hn
    exact Option.some.inj hn
  refine ⟨c, ⟨c, n⟩, ?_, h2, rfl, hu, fun q x hx1 => (hopt x hx1).trans ?_⟩
  · rw [meanPlane, h1]
    simp only [Option.bind_some]
    rw [hn', create_unit hτ hτ2 _ _ hu]; rfl
  · rw [bary_eq h hs hx] at h2
    have hc := Option.some.inj h2
    set k := (c.sub q).inner x with hk
    have e : ∀ v : Vec3 ℝ, (v.sub q).inner x ^ 2 = 1 * (v.sub c).inner x ^ 2 + 1 * (2 * k * (v.sub c).inner x + k ^ 2 * 1) := by
      intro v; rw [hk]; simp only [zeo]; ring
    have e0 : Spec.mean (fun v => (v.sub c).inner x) xs = 0 := by
      have e : ∀ v : Vec3 ℝ, (v.sub c).inner x = 1 * (x.x * v.x + x.y * v.y) + 1 * (x.z * v.z + -(c.inner x) * 1) := by
        intro v; simp only [zeo]; ring
      rw [Spec.mean_congr e, Spec.mean_lin, Spec.mean_lin, Spec.mean_lin, Spec.mean_const _ hx, ← hc]
      simp only [zeo]; ring
    rw [Spec.mean_congr e, Spec.mean_lin, Spec.mean_lin, Spec.mean_const _ hx, e0]
    nlinarith [sq_nonneg k]

end

/-- The hypotheses are met by a list of four points not in a plane. -/
example : ∃ (d : Data (Vec3 ℝ)) (xs : List (Vec3 ℝ)), d.WF ∧ d.Shows xs ∧ xs ≠ [] ∧ ∃ n, d.meanNormal (1 / 100) ⟨0, 0, 0⟩ = some n ∧ n.sqrNorm = 1 := by
  have hw : (assignList [(⟨1, 0, 0⟩ : Vec3 ℝ), ⟨0, 2, 0⟩, ⟨0, 0, 3⟩, ⟨1, 1, 1⟩]).WF := (C35_wf [] ⟨0, 0, 0⟩ 0 _).2.2.2
  refine ⟨_, _, hw, hw.shows, by simp [contents, assignList], ?_⟩
  obtain ⟨n, h1, h2, -⟩ := C60_meanNormal (by norm_num : (0 : ℝ) < 1 / 100) hw hw.shows (by simp [contents, assignList]) ⟨0, 0, 0⟩
  exact ⟨n, h1, h2⟩

end Zeo

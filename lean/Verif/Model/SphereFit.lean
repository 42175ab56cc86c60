import Verif.Model.PCA

/-! # Fitting a sphere to points: `zSphere3DFit`, src/zeo_shape3d_sphere.c:61-102

`solve` stands for `zLESolveErrorMin` with NULL weights and `tiny` for `zVecIsTiny`; both belong to the ZM
library and are parameters. A row of the matrix `c` is a vector and a number, and so is `d`. Allocation is
assumed to succeed. Every pass over the data begins with a rewind, so the cursor left by the pass before is
not kept. -/

namespace Zeo
noncomputable section

/-- The equations of one iteration, 82-91: rows of the matrix `c` with the entries of the vector `e`. -/
def SphereFit.system (d : Data (Vec3 ℝ)) (s : Sphere3 ℝ) : List ((Vec3 ℝ × ℝ) × ℝ) :=
  (d.forEach (fun l v => l ++ [((v.sub s.center, s.radius), v.sqrDist s.center - s.radius * s.radius)]) []).2

/-- The iterations, 81-96; the first argument is the number of iterations left. -/
def SphereFit.iterate (solve : List ((Vec3 ℝ × ℝ) × ℝ) → Vec3 ℝ × ℝ) (tiny : Vec3 ℝ × ℝ → Bool) (d : Data (Vec3 ℝ)) :
    ℕ → Sphere3 ℝ → Sphere3 ℝ
  | 0, s => s
  | n + 1, s =>
    let x := solve (SphereFit.system d s)
    if tiny x then s
    else SphereFit.iterate solve tiny d n ⟨s.center.cat (1/2) x.1, s.radius + 1/2 * x.2⟩

/-- The initial guess, 72-78. `none`: there are no points, and the radius is a quotient by zero. -/
def SphereFit.guess (d : Data (Vec3 ℝ)) : Option (Sphere3 ℝ) :=
  d.barycenter.map fun c => ⟨c, (d.forEach (fun r v => r + v.dist c) 0).2 / d.size⟩

/-- `zSphere3DFit`, 61-102; `n` is the largest number of iterations (`ZITERINIT`). The warning of `ZITERWARN`
is not modelled, and neither is that `e` and `d` are never freed. -/
def sphereFit (solve : List ((Vec3 ℝ × ℝ) × ℝ) → Vec3 ℝ × ℝ) (tiny : Vec3 ℝ × ℝ → Bool) (n : ℕ) (d : Data (Vec3 ℝ)) :
    Option (Sphere3 ℝ) :=
  (SphereFit.guess d).map (SphereFit.iterate solve tiny d n)

end
end Zeo

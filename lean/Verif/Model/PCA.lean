import Verif.Model.Eig
import Verif.Model.Data
import Verif.Model.Elem

/-! # Principal component analysis of a set of points: src/zeo_vec3d_pca.c

`none` stands for the failure return (NULL or false) on the empty set. -/

namespace Zeo
noncomputable section

namespace Data

/-- `zVec3DDataBarycenter`, src/zeo_vec3d_pca.c:10-23. -/
def barycenter (d : Data (Vec3 ℝ)) : Option (Vec3 ℝ) :=
  if d.isEmpty then none
  else
    let s := (d.forEach (fun c v => c.add v) Vec3.zero).2
    some (s.div (d.size : ℝ) s).2

/-- `zVec3DDataCov`, src/zeo_vec3d_pca.c:26-42. -/
def cov (d : Data (Vec3 ℝ)) (center : Vec3 ℝ) : Option (Mat3 ℝ) :=
  if d.isEmpty then none
  else
    let s := (d.forEach (fun (m : Mat3 ℝ) v => m.addDyad (v.sub center) (v.sub center)) Mat3.zero).2
    some (s.div (d.size : ℝ) s).2

/-- `zVec3DDataBaryCov`, src/zeo_vec3d_pca.c:45-64: (`*center`, `*cov`); `junk` is `*center` before. -/
def baryCov (d : Data (Vec3 ℝ)) (junk : Vec3 ℝ) : Option (Vec3 ℝ × Mat3 ℝ) :=
  if d.isEmpty then none
  else
    let s := (d.forEach (fun (s : Vec3 ℝ × Mat3 ℝ) v => (s.1.add v, s.2.addDyad v v)) (Vec3.zero, Mat3.zero)).2
    let center := (s.1.div (d.size : ℝ) junk).2
    let m := s.2.subDyad s.1 center
    some (center, (m.div (d.size : ℝ) m).2)

/-- `zVec3DDataPCA`, src/zeo_vec3d_pca.c:67-79: (`pc`, `pa` as columns). -/
def pca (τ : ℝ) (d : Data (Vec3 ℝ)) (center : Vec3 ℝ) : Option (Vec3 ℝ × Mat3 ℝ) :=
  (d.cov center).bind fun m => m.symEig τ

/-- `zVec3DDataBaryPCA`, src/zeo_vec3d_pca.c:82-94: (`*center`, `pc`, `pa` as columns). -/
def baryPCA (τ : ℝ) (d : Data (Vec3 ℝ)) (junk : Vec3 ℝ) : Option (Vec3 ℝ × Vec3 ℝ × Mat3 ℝ) :=
  (d.baryCov junk).bind fun r => (r.2.symEig τ).map fun e => (r.1, e.1, e.2)

/-- `zVec3DDataPCAFrame`, src/zeo_vec3d_pca.c:97-102. -/
def pcaFrame (τ : ℝ) (d : Data (Vec3 ℝ)) (junk : Vec3 ℝ) : Option (Frame3 ℝ) :=
  (d.baryPCA τ junk).map fun r => ⟨r.1, ⟨r.2.2.x, r.2.2.y, r.2.2.x.outer r.2.2.y⟩⟩

/-- `zVec3DDataMeanNormal`, src/zeo_vec3d_pca.c:105-112. -/
def meanNormal (τ : ℝ) (d : Data (Vec3 ℝ)) (center : Vec3 ℝ) : Option (Vec3 ℝ) :=
  (d.pca τ center).map fun e => e.2.v (eigMinID e.1)

/-- `zVec3DDataMeanPlane`, src/zeo_vec3d_pca.c:115-122: (`*center`, `*plane`). -/
def meanPlane (τ : ℝ) (d : Data (Vec3 ℝ)) (junk : Vec3 ℝ) : Option (Vec3 ℝ × Plane3 ℝ) :=
  (d.baryPCA τ junk).bind fun r => (Plane3.create τ r.1 (r.2.2.v (eigMinID r.2.1))).map fun pl => (r.1, pl)

end Data
end
end Zeo

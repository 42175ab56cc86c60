import Verif.Model.Kd

/-! # Adding to a k-d tree when memory runs out -/

namespace Zeo
noncomputable section
open Classical

namespace Kd

/-- `_zVec3DTreeAddPoint`, src/zeo_vec3d_tree.c:43-61, where `_zVec3DTreeCreateLeaf` has no memory for the leaf: the
sizes on the way are increased (line 49) before the leaf is made. -/
def addToFail (p : Vec3 ℝ) : Kd → Kd
  | nil => nil
  | node n i s q reg c0 c1 =>
    if p.e s ≥ q.e s then node (n + 1) i s q reg (addToFail p c0) c1
    else node (n + 1) i s q reg c0 (addToFail p c1)

end Kd
end
end Zeo

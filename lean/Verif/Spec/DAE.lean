import Verif.Model.DAE
import Verif.Spec.Linear
import Verif.Spec.Rotation

/-! The files of C89: what a DAE file with meshes of triangles says. -/

namespace Zeo.DAE.Spec
noncomputable section

/-- An array of points with an identifier: the column `j` holds the coordinate `perm j`. -/
structure Array where
  id : String
  perm : Equiv.Perm (Fin 3)
  pts : List (Vec3 ℝ)

/-- The name of a coordinate. -/
def coordName : Fin 3 → String := ![ "X", "Y", "Z" ]

/-- Its values in the file. -/
def Array.nums (a : Array) : List Num :=
  a.pts.flatMap fun p => [.real (p.toFin (a.perm 0)), .real (p.toFin (a.perm 1)), .real (p.toFin (a.perm 2))]

/-- Its element in the file. -/
def Array.node (a : Array) : Node :=
  .mk "source" [("id", .str a.id)] none
    [.mk "float_array" [("count", .int (3 * a.pts.length))] (some a.nums) [],
     .mk "technique_common" [] none
      [.mk "accessor" [("count", .int a.pts.length), ("stride", .int 3)] none
        [.mk "param" [("name", .str (coordName (a.perm 0)))] none [],
         .mk "param" [("name", .str (coordName (a.perm 1)))] none [],
         .mk "param" [("name", .str (coordName (a.perm 2)))] none []]]]

/-- The values of a corner of a triangle: the index of the vertex among those of the other inputs. -/
structure Corner where
  pre : List ℤ
  v : ℕ
  post : List ℤ

/-- Its values in the file. -/
def Corner.nums (c : Corner) : List Num := c.pre.map .int ++ .int c.v :: c.post.map .int

/-- Triangles: as `polylist` or `triangles`; the offset of the vertices; the other inputs with their semantic, offset and
source; the triangles. -/
structure Tris where
  poly : Bool
  voffset : ℕ
  before : List (String × ℕ × String)
  after : List (String × ℕ × String)
  tris : List (Corner × Corner × Corner)

/-- An input. -/
def inputNode (i : String × ℕ × String) : Node :=
  .mk "input" [("semantic", .str i.1), ("offset", .int i.2.1), ("source", .str ("#" ++ i.2.2))] none []

/-- The number of values of a corner: one more than the largest offset. -/
def Tris.inputs (t : Tris) : ℕ := ((t.before ++ t.after).map fun i => i.2.1).foldr max t.voffset + 1

/-- Its values in the file. -/
def Tris.nums (t : Tris) : List Num := t.tris.flatMap fun c => c.1.nums ++ c.2.1.nums ++ c.2.2.nums

/-- Its element in the file. -/
def Tris.node (vid : String) (t : Tris) : Node :=
  .mk (if t.poly then "polylist" else "triangles") [("count", .int t.tris.length)] none
    (t.before.map inputNode ++ inputNode ("VERTEX", t.voffset, vid) :: t.after.map inputNode ++
      (if t.poly then [.mk "vcount" [] (some (t.tris.map fun _ => .int 3)) []] else []) ++
      [.mk "p" [] (some t.nums) []])

/-- A corner of the right form, on `n` points. -/
def Corner.Ok (t : Tris) (n : ℕ) (c : Corner) : Prop :=
  c.pre.length = t.voffset ∧ c.pre.length + 1 + c.post.length = t.inputs ∧ c.v < n

/-- Only one input gives the vertices, and the corners have the right form. -/
def Tris.Ok (n : ℕ) (t : Tris) : Prop :=
  (∀ i ∈ t.before ++ t.after, i.1 ≠ "VERTEX") ∧ ∀ c ∈ t.tris, c.1.Ok t n ∧ c.2.1.Ok t n ∧ c.2.2.Ok t n

/-- A geometry: arrays (positions among them), the identifier of its vertices, triangles. -/
structure Geometry where
  id : String
  before : List Array
  pos : Array
  after : List Array
  vid : String
  prims : List Tris

/-- Its element in the file. -/
def Geometry.node (g : Geometry) : Node :=
  .mk "geometry" [("id", .str g.id)] none
    [.mk "mesh" [] none
      (g.before.map Array.node ++ g.pos.node :: g.after.map Array.node ++
        (.mk "vertices" [("id", .str g.vid)] none
          [.mk "input" [("semantic", .str "POSITION"), ("source", .str ("#" ++ g.pos.id))] none []]) ::
        g.prims.map (Tris.node g.vid))]

/-- The positions are told by their identifier, and the triangles are of the right form. -/
def Geometry.Ok (g : Geometry) : Prop :=
  (∀ a ∈ g.before, a.id ≠ g.pos.id) ∧ ∀ t ∈ g.prims, t.Ok g.pos.pts.length

/-- A transformation of a node. -/
inductive Xf
  | translate (p : Vec3 ℝ)
  | rotate (a : Vec3 ℝ) (deg : ℝ)
  | scale (r : Vec3 ℝ)
  | matrix (m : Frame3 ℝ) (s : ℝ)

/-- Its element in the file. -/
def Xf.node : Xf → Node
  | .translate p => .mk "translate" [] (some [.real p.x, .real p.y, .real p.z]) []
  | .rotate a q => .mk "rotate" [] (some [.real a.x, .real a.y, .real a.z, .real q]) []
  | .scale r => .mk "scale" [] (some [.real r.x, .real r.y, .real r.z]) []
  | .matrix m s => .mk "matrix" [] (some
      [.real m.att.x.x, .real m.att.y.x, .real m.att.z.x, .real m.pos.x,
       .real m.att.x.y, .real m.att.y.y, .real m.att.z.y, .real m.pos.y,
       .real m.att.x.z, .real m.att.y.z, .real m.att.z.z, .real m.pos.z,
       .real 0, .real 0, .real 0, .real s]) []

/-- What it does to a point, according to COLLADA. -/
def Xf.apply : Xf → Vec3 ℝ → Vec3 ℝ
  | .translate t, p => ⟨p.x + t.x, p.y + t.y, p.z + t.z⟩
  | .rotate a q, p => ⟨Zeo.Spec.rodrigues a.toFin (q * Real.pi / 180) p.toFin 0, Zeo.Spec.rodrigues a.toFin (q * Real.pi / 180) p.toFin 1,
      Zeo.Spec.rodrigues a.toFin (q * Real.pi / 180) p.toFin 2⟩
  | .scale r, p => ⟨r.x * p.x, r.y * p.y, r.z * p.z⟩
  | .matrix m s, p => ⟨(m.att.x.x * p.x + m.att.y.x * p.y + m.att.z.x * p.z + m.pos.x) / s,
      (m.att.x.y * p.x + m.att.y.y * p.y + m.att.z.y * p.z + m.pos.y) / s,
      (m.att.x.z * p.x + m.att.y.z * p.y + m.att.z.z * p.z + m.pos.z) / s⟩

/-- The transformations of a node are multiplied in the order of the file: the last one is applied to the point first. -/
def place (xs : List Xf) (p : Vec3 ℝ) : Vec3 ℝ := xs.foldr Xf.apply p

/-- The transformations of a node of the usual form: translations, then at most one rotation, then scales; or a matrix, then
scales.  The axis of the rotation has length one, and its angle is zero or its vector is above the tolerance. -/
def Tame (τ : ℝ) (xs : List Xf) : Prop :=
  ∃ ss : List (Vec3 ℝ), (∃ m s, s ≠ 0 ∧ xs = .matrix m s :: ss.map .scale) ∨
    ∃ ts : List (Vec3 ℝ), xs = ts.map .translate ++ ss.map .scale ∨
      ∃ a q, a.x ^ 2 + a.y ^ 2 + a.z ^ 2 = 1 ∧
        (q = 0 ∨ ¬ (|a.x * (q * Real.pi / 180)| ≤ τ ∧ |a.y * (q * Real.pi / 180)| ≤ τ ∧ |a.z * (q * Real.pi / 180)| ≤ τ)) ∧
        xs = ts.map .translate ++ .rotate a q :: ss.map .scale

/-- The triangles of geometries at their places. -/
def triangles (l : List (Geometry × List Xf)) : List (Vec3 ℝ × Vec3 ℝ × Vec3 ℝ) :=
  l.flatMap fun i => i.1.prims.flatMap fun t => t.tris.map fun c =>
    (place i.2 (i.1.pos.pts.getD c.1.v .zero), place i.2 (i.1.pos.pts.getD c.2.1.v .zero), place i.2 (i.1.pos.pts.getD c.2.2.v .zero))

/-- The node that shows a geometry. -/
def instNode (i : List Xf × String) : Node :=
  .mk "node" [] none (i.1.map Xf.node ++ [.mk "instance_geometry" [("url", .str ("#" ++ i.2))] none []])

/-- The file of geometries and the nodes that show them. -/
def doc (gs : List Geometry) (scene : List (List Xf × String)) : Node :=
  .mk "COLLADA" [("version", .str "1.4.1")] none
    [.mk "asset" [] none [],
     .mk "library_geometries" [] none (gs.map Geometry.node),
     .mk "library_visual_scenes" [] none [.mk "visual_scene" [] none (scene.map instNode)],
     .mk "scene" [] none []]

/-- A geometry of points without triangles. -/
def dots (id : String) (pts : List (Vec3 ℝ)) : Geometry := ⟨id, [], ⟨"a", 1, pts⟩, [], "v", []⟩

/-- What reading one point under transformations should give, for any number of them in any order. -/
def Places (τ : ℝ) (ok : List Xf → Prop) : Prop :=
  ∀ xs, ok xs → ∀ p, ∃ fs, read τ (doc [dots "g" [p]] [(xs, "g")]) = .ok ⟨[place xs p], fs⟩

/-- The file of one mesh. -/
def oneMesh (l : List Node) : Node :=
  .mk "COLLADA" [] none [.mk "library_geometries" [] none [.mk "geometry" [("id", .str "g")] none [.mk "mesh" [] none l]]]

end
end Zeo.DAE.Spec

import Verif.Model.Mat3
import Mathlib.Algebra.Order.Floor.Ring

/-! # Terrain elevation map: src/zeo_map_terra.c, include/zeo/zeo_map_terra.h

The grid is the ZEDA two-dimensional array of `xsize` rows and `ysize` columns, stored row by row; ZEDA's
`zArray2PosIsValid` is taken to be the range check of both indices and `zArray2ElemNC` the element
`i*ysize+j` of the buffer. `int` is not bounded: overflow in the conversion of `floor` and in the point
counter is not modelled. -/

namespace Zeo

/-- `zTerraCell`, include/zeo/zeo_map_terra.h:17-27. -/
structure TerraCell (K : Type*) where
  z : K
  norm : Vec3 K
  var : K
  travs : Bool
  prm : Vec3 K
  s : Mat3 K
  np : ℕ
deriving DecidableEq

namespace TerraCell
variable {K : Type*} [Field K]

/-- `_zTerraCellInit`, src/zeo_map_terra.c:14-24. -/
def init : TerraCell K := ⟨0, .ez, 1, false, ⟨0, 0, 0⟩, .ident, 0⟩
/-- `zTerraCellZ`, include/zeo/zeo_map_terra.h:29-30. -/
def cellZ (c : TerraCell K) (x y : K) : K := c.prm.x * x + c.prm.y * y + c.prm.z
/-- `_zTerraCellResidual`, src/zeo_map_terra.c:27-30. -/
def residual (c : TerraCell K) (p : Vec3 K) : K := c.cellZ p.x p.y - p.z
/-- `_zTerraCellUpdate`, src/zeo_map_terra.c:34-48; `junk` is the uninitialised `qd`, which `zVec3DDiv`
would leave in place if the divisor were zero. -/
def update [DecidableEq K] (junk : Vec3 K) (c : TerraCell K) (p : Vec3 K) : TerraCell K :=
  let e := c.residual p
  let w : Vec3 K := ⟨p.x, p.y, 1⟩
  let q := c.s.mulVec w
  let d := 1 + w.inner q
  let qd := (q.div d junk).2
  let c1 : TerraCell K := { c with prm := c.prm.cat (-e) qd, s := c.s.subDyad qd q }
  let e := c1.residual p
  { c1 with var := c1.var + (e * e - c1.var) / ((c1.np + 1 : ℕ) : K), np := c1.np + 1 }
end TerraCell

/-- `_zTerraCellForm`, src/zeo_map_terra.c:51-56; `zVec3DNormalizeDRC` leaves a tiny vector as it is. -/
noncomputable def TerraCell.form (τ : ℝ) (c : TerraCell ℝ) (x y : ℝ) : TerraCell ℝ :=
  let n : Vec3 ℝ := ⟨-c.prm.x, -c.prm.y, 1⟩
  { c with z := c.cellZ x y, norm := (Vec3.normalize τ n n).2 }

/-- `zTerra`, include/zeo/zeo_map_terra.h:37-50; `cells` is the buffer of the grid array. -/
structure Terra (K : Type*) where
  xmin : K
  xmax : K
  ymin : K
  ymax : K
  zmin : K
  zmax : K
  dx : K
  dy : K
  thVar : K
  thGrd : K
  thRes : K
  xsize : ℕ
  ysize : ℕ
  cells : List (TerraCell K)

namespace Terra
variable {K : Type*} [Field K] [LinearOrder K] [IsStrictOrderedRing K]

/-- `zTerraX`, include/zeo/zeo_map_terra.h:58. -/
def gx (t : Terra K) (i : ℤ) : K := t.xmin + i * t.dx
/-- `zTerraY`, include/zeo/zeo_map_terra.h:59. -/
def gy (t : Terra K) (j : ℤ) : K := t.ymin + j * t.dy
/-- `zArray2PosIsValid`. -/
def valid (t : Terra K) (i j : ℤ) : Prop := 0 ≤ i ∧ i < t.xsize ∧ 0 ≤ j ∧ j < t.ysize
instance (t : Terra K) (i j : ℤ) : Decidable (t.valid i j) := by unfold valid; infer_instance
/-- The buffer index of `zArray2ElemNC`. -/
def index (t : Terra K) (i j : ℤ) : ℤ := i * t.ysize + j
/-- `zTerraGridNC`, include/zeo/zeo_map_terra.h:53: the cell read, `none` if the place is outside the
buffer (undefined behaviour). -/
def gridNC (t : Terra K) (i j : ℤ) : Option (TerraCell K) :=
  if t.index i j < 0 then none else t.cells[(t.index i j).toNat]?
/-- `zTerraGrid`, src/zeo_map_terra.c:63-66. -/
def grid (t : Terra K) (i j : ℤ) : Option (TerraCell K) := if t.valid i j then t.gridNC i j else none

/-- `zTerraAdjustMax`, include/zeo/zeo_map_terra.h:85-88. -/
def adjustMax (t : Terra K) : Terra K :=
  { t with xmax := t.xmin + ((t.xsize : K) - 1) * t.dx, ymax := t.ymin + ((t.ysize : K) - 1) * t.dy }
/-- `zTerraAllocGrid`, src/zeo_map_terra.c:134-141, with `zTerraAlloc` (92-104), `zTerraLevel` (81-89) and
`zTerraSetRegion` (107-117); the default thresholds are parameters. Sizes are non-negative (`int` in C). -/
def allocGrid (xmin ymin dx dy : K) (xsize ysize : ℕ) (zmin zmax thVar thGrd thRes : K) : Option (Terra K) :=
  if xsize = 0 ∨ ysize = 0 then none
  else some (adjustMax ⟨xmin, 0, ymin, 0, zmin, zmax, dx, dy, thVar, thGrd, thRes, xsize, ysize,
    List.replicate (xsize * ysize) .init⟩)
/-- `zTerraAllocRegion`, src/zeo_map_terra.c:120-131; `none` also for a negative size. -/
def allocRegion [FloorRing K] (τ xmin xmax ymin ymax zmin zmax dx dy thVar thGrd thRes : K) : Option (Terra K) :=
  if dx < τ ∨ dy < τ then none
  else
    let xsize := ⌊(xmax - xmin) / dx⌋ + 1
    let ysize := ⌊(ymax - ymin) / dy⌋ + 1
    if xsize < 0 ∨ ysize < 0 then none
    else allocGrid xmin ymin dx dy xsize.toNat ysize.toNat zmin zmax thVar thGrd thRes

/-- Apply `f` to the cell `zTerraGrid(terra,i,j)` if that is not NULL. -/
def modify (t : Terra K) (i j : ℤ) (f : TerraCell K → TerraCell K) : Terra K :=
  if t.valid i j then { t with cells := t.cells.modify (t.index i j).toNat f } else t

/-- The indices written by `_zTerraGetBaseGrid`, src/zeo_map_terra.c:151-157: those passed in are kept if
the height is out of range. -/
def baseIndex [FloorRing K] (t : Terra K) (p : Vec3 K) (ij : ℤ × ℤ) : ℤ × ℤ :=
  if p.z < t.zmin ∨ p.z > t.zmax then ij
  else (⌊(p.x - t.xmin) / t.dx⌋, ⌊(p.y - t.ymin) / t.dy⌋)

/-- `_zTerraUpdate`, src/zeo_map_terra.c:160-169, from the indices `ij`: the map and the indices. -/
def updateFrom [FloorRing K] (junk : Vec3 K) (t : Terra K) (ij : ℤ × ℤ) (p : Vec3 K) : Terra K × (ℤ × ℤ) :=
  let ij' := t.baseIndex p ij
  let t1 := if p.z < t.zmin ∨ p.z > t.zmax then t else t.modify ij'.1 ij'.2 (fun c => c.update junk p)
  let t2 := t1.modify (ij'.1 + 1) ij'.2 (fun c => c.update junk p)
  let t3 := t2.modify ij'.1 (ij'.2 + 1) (fun c => c.update junk p)
  let t4 := t3.modify (ij'.1 + 1) (ij'.2 + 1) (fun c => c.update junk p)
  (t4, ij')

/-- `zTerraUpdate`, src/zeo_map_terra.c:170-177. -/
def update [FloorRing K] (junk : Vec3 K) (t : Terra K) (p : Vec3 K) : Terra K := (t.updateFrom junk (0, 0) p).1

/-- The loop of `zTerraIdent`, src/zeo_map_terra.c:195-199; the indices are carried over. -/
def identLoop [FloorRing K] (junk : Vec3 K) (t : Terra K) (ps : List (Vec3 K)) : Terra K :=
  (ps.foldl (fun s p => s.1.updateFrom junk s.2 p) (t, (0, 0))).1

/-- `_zTerraCheckGridTravsRes`, src/zeo_map_terra.c:206-213. -/
def travsRes (t : Terra K) (i j : ℤ) (p : Vec3 K) : Bool :=
  match t.grid i j with
  | none => true
  | some c => decide (|c.residual p| ≤ t.thRes)
/-- `_zTerraCheckGridTravs`, src/zeo_map_terra.c:216-234. -/
def checkGridTravs (t : Terra K) (i j : ℤ) (c : TerraCell K) : Bool :=
  if c.var > t.thVar then false
  else if c.norm.inner .ez < t.thGrd then false
  else
    let p : Vec3 K := ⟨t.gx i, t.gy j, c.z⟩
    t.travsRes (i - 1) (j - 1) p && t.travsRes (i - 1) j p && t.travsRes (i - 1) (j + 1) p &&
    t.travsRes i (j - 1) p && t.travsRes i (j + 1) p &&
    t.travsRes (i + 1) (j - 1) p && t.travsRes (i + 1) j p && t.travsRes (i + 1) (j + 1) p

/-- `for( i=0; i<xsize; i++ ) for( j=0; j<ysize; j++ ) *zTerraGridNC(terra,i,j) = f(i,j,old)`. The loops
below only read, of the other cells, fields that `f` does not write, so all can be done at once. -/
def mapCells (t : Terra K) (f : ℤ → ℤ → TerraCell K → TerraCell K) : Terra K :=
  { t with cells := t.cells.mapIdx (fun n c => f ((n / t.ysize : ℕ) : ℤ) ((n % t.ysize : ℕ) : ℤ) c) }

/-- `zTerraCheckTravs`, src/zeo_map_terra.c:237-244. -/
def checkTravs (t : Terra K) : Terra K :=
  t.mapCells (fun i j c => { c with travs := t.checkGridTravs i j c })

/-- `zTerraZRange`, src/zeo_map_terra.c:247-260; `none` is (HUGE_VAL, -HUGE_VAL). -/
def zRange (t : Terra K) : Option (K × K) :=
  t.cells.foldl (fun s c => match s with
    | none => some (c.z, c.z)
    | some (lo, hi) => some (if c.z < lo then c.z else lo, if c.z > hi then c.z else hi)) none

/-- What `zTerraZ` does: `outOfRegion` (error message, NAN), `badRead` (a cell outside the buffer is read),
`nan` (division by zero), `val`. -/
inductive ZResult (K : Type*)
  | outOfRegion
  | badRead
  | nan
  | val (z : K)
deriving DecidableEq

/-- `_zTerraZGrid`, src/zeo_map_terra.c:263-270: (z, d), `none` for a read outside the buffer. -/
def zGrid (t : Terra K) (x y : K) (i j : ℤ) : Option (K × K) :=
  (t.gridNC i j).map (fun c =>
    (c.cellZ x y, ((x - t.gx i) * (x - t.gx i) + (y - t.gy j) * (y - t.gy j)) * c.var))

/-- `zTerraZ`, src/zeo_map_terra.c:273-293, for `zmin ≤ zmax` or not: the middle of the range is used. -/
def terraZ [FloorRing K] (t : Terra K) (x y : K) : ZResult K :=
  let p : Vec3 K := ⟨x, y, (t.zmin + t.zmax) / 2⟩
  if p.z < t.zmin ∨ p.z > t.zmax then .outOfRegion
  else
    let ij := t.baseIndex p (0, 0)
    let i := ij.1
    let j := ij.2
    if ¬ t.valid i j then .outOfRegion
    else
      match t.zGrid x y i j, t.zGrid x y i (j + 1), t.zGrid x y (i + 1) j, t.zGrid x y (i + 1) (j + 1) with
      | some (z0, d0), some (z1, d1), some (z2, d2), some (z3, d3) =>
        let w0 := d1 * d2 * d3
        let w1 := d2 * d3 * d0
        let w2 := d3 * d0 * d1
        let w3 := d0 * d1 * d2
        if w0 + w1 + w2 + w3 = 0 then .nan
        else .val ((w0 * z0 + w1 * z1 + w2 * z2 + w3 * z3) / (w0 + w1 + w2 + w3))
      | _, _, _, _ => .badRead

end Terra

/-- `zTerraForm`, src/zeo_map_terra.c:180-188. -/
noncomputable def Terra.form (τ : ℝ) (t : Terra ℝ) : Terra ℝ :=
  t.mapCells (fun i j c => c.form τ (t.gx i) (t.gy j))
/-- `zTerraIdent`, src/zeo_map_terra.c:191-203. -/
noncomputable def Terra.ident (τ : ℝ) (junk : Vec3 ℝ) (t : Terra ℝ) (ps : List (Vec3 ℝ)) : Terra ℝ :=
  ((t.identLoop junk ps).form τ).checkTravs

end Zeo

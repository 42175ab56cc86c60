# Formal model of mi-lib/zeo in Lean 4 — design

## 1. Layout

* `lean/Verif/Model/*.lean` — the model: one Lean definition per C function (or macro), each with a comment citing
  the file and lines of /repo it models and the simplifications made.
* `lean/Verif/Spec/*.lean` — small, independent specifications (what "nearest", "contains", "closed mesh", "least
  squares", "6x6 matrix", "mass of a solid" mean), not mentioning model helpers.
* `lean/Verif/Lemmas/*.lean` — proof machinery.
* `lean/Verif/Props/*.lean` — the property theorems, one file per property, each with an `example` showing that its
  hypotheses are met by a concrete non-trivial case.
* `properties.jsonl` the properties, `MANIFEST.json` the theorems and status of each, `COVERAGE.md` the functions of
  /repo that are and are not modelled, `AXIOMS.md` the axioms each theorem depends on, `seeded/LOG.jsonl` the wrong
  programs the theorems were tested against.

## 2. Modelling decisions

* **Numbers.** C `double` is modelled by an exact linearly ordered field `K` (any; the examples run it at `ℚ`) when a
  function uses only `+ - * /`, comparisons and `fabs`; by `ℝ` when it uses `sqrt`, `sin`, `cos`, `atan2`.
  Rounding, overflow, NaN and signed zero are not modelled. Every property below is therefore about the algorithm in
  exact arithmetic. `HUGE_VAL` is an extra top element (`Option`/explicit infinity) where the code stores it. Where
  the code divides by zero and the property depends on the result, the model returns a separate outcome.
* **Tolerance.** `zTOL` is an arbitrary parameter `τ ≥ 0` (`τ > 0` where needed). `zIsTiny(x)` is `|x| ≤ τ`. This is
  recalled from ZM's `zIsTol`, whose source is not in /repo; theorems do not depend on strict vs non-strict except
  where they say so.
* **Pointers.** A function writing through an output pointer returns the new value; `NULL` returns are `none`.
  Undefined behaviour (out-of-range index, NULL dereference, uninitialised read) is a distinct outcome; the content of
  uninitialised variables is an extra argument (`junk`, `old`), over which the theorems quantify. Aliasing (output
  pointer equal to an input pointer) is modelled by sequences of single-component assignments to a store in
  `Model/Alias.lean` and `Model/Alias6.lean` (division, normalisation, 6D vectors and matrices, twists).
* **Containers.** ZEDA lists/arrays/trees are modelled by Lean lists and inductive trees. Assumed contract:
  `zListForEach` visits tail→head, `zListInsertHead` adds at the head end, so visiting order is insertion order.
* **Loops without a bound** are modelled by a version with fuel; the model returns the result of the first sufficient
  fuel, or `none` if there is none (the loop does not end). Theorems state termination explicitly.
* **Random numbers** (shuffles, samples) are an arbitrary sequence given as an argument.
* **B-splines.** `zBSplineParamSeg` of ZM is a function argument; C73 and C74 assume that for a parameter in the domain it returns
  a knot interval of positive length that contains it (`IsSegment`; which one, at a knot, is left open). The basis functions of ZM
  are taken to be the Cox–de Boor recursion. Both are recalled, the source of ZM is not in /repo.
* **External numerical routines.** The root finder `zPexBH` of ZM is a function argument; C57 assumes it returns the
  roots exactly.
* **Text formats (ZTK).** A section is a list of key fields (a key and its values); the loop over the fields and the
  printing loop belong to ZEDA and are modelled from their use (the head of `Model/ZTK.lean` lists what is assumed).
  Decimal notation of numbers is an arbitrary function.
* **Allocation** always succeeds unless a definition says otherwise.

## 3. Trusted base

* Lean 4.33.0 kernel; axioms `propext`, `Classical.choice`, `Quot.sound` only (no axiom is added by this project, no
  `sorry`, no `native_decide`, no `bv_decide`). `AXIOMS.md` lists the axioms of every theorem of the manifest. Mathlib
  is used as a library of checked proofs.
* The hand translation from C to Lean (no tool links them); citations are given so that it can be reviewed.
* The contracts of ZEDA/ZM used by zeo (lists, arrays, `zIsTol`, `_zLimit`, `_zMin/_zMax`, `atan2`, `sqrt`), because
  their source is not available here.

## 4. Modelled and not modelled

`COVERAGE.md` is generated from the citations and lists every function of src/*.c. In words:

* Modelled: vectors and matrices of 2, 3 and 6 dimensions, Euler parameters, frames; boxes, edges, triangles,
  tetrahedra, planes, lines, spheres, disks, ellipses; cylinders, cones, capsules, ellipsoids, elliptic cylinders with
  their point queries, mass properties and transformations; polyhedra and the mesh generators; triangulation of loops;
  point sets, kd-tree, octree; bounding boxes and bounding balls; principal components, normals, registration;
  intersection tests, GJK and MPR; terrain maps; colours, optical information; name tables; ZTK readers and printers of
  optical information and shapes; the generic functions on shapes, lists and arrays of shapes; planar convex hulls;
  boundary representations with truncation, merge and intersection; convex hulls and oriented
  bounding boxes in space; Delaunay triangulation and Voronoi diagram in the plane; NURBS surfaces
  and those of shapes.
* STL files are modelled from their words (text) or typed cells (binary) on; `zFToken`, `zFDouble`, `fread` and `fwrite` are not.
* PLY, OBJ and PCD files are modelled likewise, from the words of each line or the typed cells on; compressed PCD data are not.
* Not modelled: the file format DAE,
  textures, and most printing, scanning and allocation wrappers.

## 5. Plan per property

| id | what is modelled | how it is proved |
|----|------------------|------------------|
| C01 | vec3d products | ring identities |
| C02 | component-write stores for DRC and aliased calls | state equality; counterexamples for the unsafe ones |
| C03 | Div of every vector type | case on k = 0 |
| C04 | Normalize over ℝ | sqrt algebra |
| C05 | balancing + Gauss elimination of zMat3DInv / MulInv | field algebra; negation for the singular case |
| C06 | mat2d/mat3d products, det, adj, T | ring |
| C07 | mat2d inverse family | field_simp |
| C08 | attitude constructors over ℝ | sin²+cos²=1 |
| C09 | To/From ZYX, ZYZ with atan2 := Complex.arg | trigonometry, case split at gimbal lock |
| C10 | To/From AA, zVec3DRot | trigonometry |
| C11 | EP functions | ring + unit-norm hypothesis |
| C12 | zEPInterDiv | endpoint evaluation, norm of normalised vector |
| C13 | frame3d/frame2d | ring under orthonormality |
| C14 | vec6d/mat6d blocks | comparison with `Fin 6` matrices |
| C15 | shifts and 6D transforms | ring |
| C16 | Euler rates | field algebra under non-singularity |
| C17 | AABox closest | clamp inequality per axis |
| C18 | Box3D closest | reduction to C17 by isometry |
| C19–C21 | edge / triangle / tetra closest | variational inequality (projection characterisation) |
| C22, C23, C24 | sphere, centres, lines, planes | field algebra |
| C25 | cyl, cone, capsule | variational inequality; negations where code is wrong |
| C26, C27 | AABox lattice, SAT | order reasoning / separating axis |
| C28–C30 | kd-tree as inductive tree; insertion without memory in `Model/KdFail.lean` | invariants by induction over insertions; induction over the tree |
| C31–C34 | octree as inductive tree with fuel-free recursion on depth | same; counterexample for Unify |
| C35–C37 | zVec3DData as cursor + sequence; its memory in `Model/DataMem.lean` (allocation may fail at any call) | refinement to list; folds |
| C38 | nested iteration over cursors | negation: only the first element of data1 is used |
| C39 | Welzl action-stack as a transition system | invariant: point stacks permute the data; exit test |
| C40 | meshes as index triples | antisymmetry of edge sums |
| C41 | generators as lists of index triples | multiset equality of directed edges |
| C42 | ear clipping loop | induction on the loop length |
| C43 | RLS update | invariant S·(I+Σwwᵀ)=I by induction over history |
| C44, C45 | terra update / Z | negation with a witness; weighted mean |
| C46, C47 | colour conversions | case analysis with field arithmetic |
| C48 | name tables | finite table lifted to all strings |
| C49, C50 | inertia, DH | integrals over tetrahedra; ring |
| C51 | GJK state machine with the closest-point oracle of C19–C21 | invariant by induction over iterations |
| C52 | intersection routines | case analysis; negations |
| C53 | ZTK readers and printers | evaluation of the tables; induction over fields for polyhedra; negations |
| C54 | map identification from a point cloud | induction over the loops |
| C55 | polyhedron point queries | minimum over facets; convexity by separating planes |
| C56 | volumes and inertia of solids | integrals by slicing (Cavalieri) |
| C57 | nearest point on ellipses, ellipsoids, elliptic cylinders | secular equation, monotonicity of the root function |
| C58 | moving and mirroring of shapes | equality of point sets |
| C59 | Jacobi iteration and SVD | descent of the off-diagonal sum, termination, then algebra |
| C62 | shapes of any type and compounds of shapes | case analysis over C18–C58; parallel axis theorem; induction over the shapes |
| C63 | planar convex hull: base, angular comparison, scan, two chains, polyhedron, closest point | angular order in a half-plane; induction over the scan; determinants; the distance along the visible boundary has no peak |
| C64 | polar coordinates, angles, attitude errors, conversions between solids | trigonometric addition; nearest points on equal point sets |
| C65 | MPR: search of the portal, refinement, depth, contact point | signed volumes of the portal as weights of the origin; the crossing of the ray moves outward; concrete runs for the refutations |
| C66 | B-Rep: conversion from and to polyhedra | cells are numbers, memory is a function; invariant of the insertion of a face; map of a closed mesh under an injective placement |
| C67 | B-Rep: truncation by planes; memory with failing allocation (`Model/BRepMem.lean`) | the 27 sign patterns reduce to five geometric cases by permutation of the corners; chains of edge circulations for closedness |
| C68 | B-Rep: merge, intersection of polyhedra; memory with failing allocation (`Model/BRepMem.lean`) | numbers of the second solid are shifted; iff for soundness; concrete cubes for the fast version |
| C69 | quickhull: facets, conflict lists, visible region, horizon, new facets | signed volumes; a rotation of the facet around an edge defines the neighbours; the visible region is connected through the horizon walk; invariant of the loop, decreasing number of undone points; rays from the inside cover closed half-spaces; each corner maximises a linear function |
| C70 | oriented bounding box: the narrowest face of the hull, the planar hull of the shadow, the rectangles along its edges | supporting planes of a hull are planes of its facets; the product of two orthogonal widths has its minimum where a side meets two points (a direction between would be a strict local maximum); those two are an edge of the rim; the volume is refuted for a tetrahedron |
| C71 | Delaunay: heap of triangles, split, stack of edges, flips, removal of the outer triangle | orientation and in-circle determinants; generic points are covered once (counting), so edges are shared by at most two triangles; stack invariant: all edges but the stacked ones around the new point are legal; each flip removes an old triangle; memory of the list and the stack with failing allocation (`Model/DelMem.lean`), found triangles and flips left open |
| C72 | Voronoi: lists of cells and nodes, the sort that closes a loop; memory with failing allocation (`Model/VorMem.lean`) | the triangles around a vertex are one cycle (angles from a direction inside a missed triangle decrease strictly); every direction from a vertex is in one of them (cover and pigeonhole); cell = hull of the nodes by separation |
| C73 | B-spline basis as the Cox–de Boor recursion over ℝ, sums of `zNURBS3DVec` and its derivative, Gauss–Newton loop of `zNURBS3DClosest` with a bound on its rounds, tessellation, ZTK fields | non-negativity and unit sum of the basis by induction on the degree; derivative of the basis off the knots; affine maps commute with weighted means; witnesses for the refutations |
| C74 | control points, weights and knots of `zeo_nurbs3d_shape.c` | surface as product of two planar curves; rational quadratic arcs are quarter circles, onto; degree 1 gives polygons; a double knot at degree 1 splits the polygon |
| C75 | collision and intersection of polyhedra: base point, dual points, two hulls; the result of `zGJKDepth` is a parameter; local variables of `zIntersectPH3D` (`Model/ColPHMem.lean`) | polar sets of finite sets: the polar of the dual points is the intersection; the polar of a polytope given by facets is the hull of the points `m/h`; every facet of the dual hull is at least the inverse of the radius away |
| C76 | `zTri3DLinScale`; `zGJKDepth`: start from the simplex, hull of the differences, nearest face, support in its direction, the list of slots, the weights | the nearest face of a polytope around the origin is hit by the foot of its plane; invariant: if the slots are behind the plane of the last face, all differences are; each round adds a new difference; the slots are different, so each corner of the face is counted once |
| C77 | STL: registration of vertices in the kd-tree (with the uninitialised point of the empty tree as a parameter), facets, text reader and writer, binary reader and writer, recognition of binary files | the tree is always the tree built from a list of vertices that only grows; faces refer to positions of the list |
| C78 | PLY: header (format, elements, properties), readers of vertices, faces and range grids in text and binary, swapped byte orders, writers | general columns: each row of a column type is stored and read as its value; the polyhedron is followed through the elements |
| C79 | OBJ: counting and reading of vertices and faces, references with textures and normals, uninitialised vertices as a parameter | induction over the lines with the vertices and faces read so far |
| C80 | PCD: header with the moving key table, fields, viewpoint, text and binary data, writer | each row sets exactly the named coordinates; the point set is an array that is filled (C35) |
| C81 | prisms and pyramids: `zPH3DCreatePrism`, `zPH3DCreatePyramid` | triangulation on offsets (`Sweep.run_map`: the same as on vertices); closedness by sums of antisymmetric functions of the edges; volume by C40 |
| C82 | `zMat3DOrthonormalize` (aliasing as a flag, signed axes), `zMat3DDif`, `zMat3DEigPower`, `zMat3DEigPowerInv` | `Spec/Eigen.lean`: orthonormal eigenbasis; the iteration in its coordinates is the Rayleigh quotient of the powers, with an explicit error bound. `ZITERINIT` (ZM) not modelled: the number of iterations is a parameter, as is the random start |
| C83 | ZTK tables of `zTerra`, `zMap`, `zMapNet` (`Model/MapZTK.lean`) | The written file as a list of key fields, numbers through an arbitrary `fmt`; expected map `terraBack` stated from the fields of the map. Negative sizes are left to ZEDA (`unmodelled`). |
| C84 | `zVec3DOctreeInitAuto`, `zVec3DOctreeAddData`, `zVec3DDataToOctree`, octant normals, `zVec3DDataNormalVec_Octree` (`Model/OctData.lean`); octrees with normals and moments through all calls (`Model/OctNorm.lean`); the blocks of octants and points (`Model/OctMem.lean`) | Recursion with a budget as in C31; `pow`, `zLog` and `ceil` as real functions. |
| C85 | `zTexture` and its ZTK table (`Model/Texture.lean`); its memory (`Model/TexMem.lean`) | Vertices of faces are indices; memory as allocated is an arbitrary `junk`; the tokens of a printed pair are an arbitrary `pair`, because ZEDA is not part of the repository. Under the assumption used for `zVec3D`, that a parenthesised value is one token, `zVec2DFromZTK` would not read what `zVec2DFPrint` writes. |
| C86 | The whole table of `zShape3DFromZTK` but `import`, with `zShape3DMirror`, `zAAFromZTK`, `zMat3DFromZTK`, `zFrame3DFromZTK` (`Model/ShapePlace.lean`) | The earlier shapes are a list, `self` tells whether the array holds the shape being read as well; a body as allocated is an arbitrary function `fresh` of the type; matrices are read as rows of numbers only. |
| C87 | `zMultiShape3DFromZTK`, `zMultiShape3DFPrintZTK`, `zMultiShape3DClone`, `zShape3DClone`, the class methods `_clone` (`Model/MultiShape.lean`) | `_ZTKEvalTag` reads the sections in the order of the file and stops at the first reader that gives NULL; elements not read are `none`; pointers of a clone are indices tagged with the compound they point into; a NULL buffer minus NULL is zero. |
| C88 | `zPH3DFromZTK` with `loop`, `prism`, `pyramid`, `_zPH3DLoopArcFromZTK` (`Model/LoopZTK.lean`) | Values are tokens as in C53; both ends of an arc the same (not a number) and an arc without a point before it are undefined; `zVec2DListAdd` inserts at the head and succeeds. |
| C89 | all of `src/zeo_ph3d_dae.c` (`Model/DAE.lean`) | libxml2 and the `zXML…` macros of ZEDA are assumed as stated at the head of the file: a tree of elements with names, attributes and contents of numbers; a content that ends too early is not modelled; `uint` does not overflow. |
| C90 | `zSphere3DFit` (`Model/SphereFit.lean`) | `zLESolveErrorMin`, `zVecIsTiny` and the number of iterations of `ZITERINIT` belong to ZM and are parameters; the warning and the two vectors that are never freed are not modelled; the empty set is not modelled. |
| C91 | `_toph` of the eight classes, `zShape3DToPH`, `zMultiShape3DToPH` (`Model/ToPH.lean`, meshes of `Model/MeshGen.lean`) | Allocation succeeds; NURBS shapes are not modelled; capsules whose number of divisions is not a multiple of four are an explicit `unmodelled` outcome (C41 says what is left unset). |
| C92 | `zMultiShape3DFromOctree`, `zShape3DBoxCreateFromAABox` (`Model/FromOct.lean`), octree of `Model/Octree.lean` | Allocation succeeds; the optical information is an arbitrary value. |
| C93 | `zShape3DReadFile`, `_zShape3DReadFileEXT`, `zShape3DReadFileSTL/PLY/OBJ/DAE`, `_zShape3DImportFromZTK`, `zShape3DReadZTK` (`Model/Import.lean`) | `zGetSuffix`, `zStrToLower` arbitrary functions; a mesh file is what its reader (C77-C79, C89) makes of it; nested files to any finite depth. |
| C94 | `zXMatch`, `zXEqual`, `zXIsTol`, `zXIsIdent` of vectors, matrices, frames, boxes, `zEPIsIdent`; `zAABox2DCreateFromSize`, `zAABox2DExpand`, `zAABox2DArea`, `zAABox2DVert`; the comparison functions of sorted lists (`Model/Equal.lean`) | `==` on doubles is equality of reals (no NaN); `zCoord2DEqual` left out (it uses `zEqual` of the ZM library). |
| C95 | C++ methods and operators: division, `transpose`, `transposeDirect`, `inv`, `mulT`, frames, `zEP::create`, `zEP::fromMat3D`, `zVec3DOctree::nearestNeighbor` (`Model/Cpp.lean`) | The functions called are those of the other models; modelled here is which is called, on what, and what becomes of the object. The other methods only pass their arguments on. |
| C96 | `zShape3DInit`, `zShape3DQueryAssign`, `zShape3DDestroy`, `zShape3DMirror`, constructors and destructor, `zShape3DBoxCreate` etc., `zMultiShape3DDestroy`, `zMultiShape3DFromZTK`: pointers and blocks of memory (`Model/Life.lean`); polyhedra with the blocks of their bodies (`Model/ShapePH.lean`) | Allocation succeeds; the seven types whose `_destroy` is empty, and polyhedra; `zFree`, `zNameFree`, `zNameSet`, `zArrayAlloc` of ZEDA by their description; optical informations and textures are not owned. |
| C97 | `zShape3DNURBSAlloc`, the methods of NURBS shapes (`zeo_shape3d_nurbs_com`) and the functions of `zShape3D` that call them (`Model/ShapeNURBS.lean`) | Memory allocated by `zAlloc` of ZEDA is filled with zeros; allocation succeeds; names, optical informations and textures left out; a destination of other sizes is taken to be left as it was (it may get the knots). |
| C98 | `zMapInit`, `zMapDestroy`, `zMapFromZTK`, `zMapNetFromZTK`, `zMapNetDestroy` and the memory of `zTerra` (`Model/LifeMap.lean`), on the heap of `Model/Life.lean` | Allocation succeeds and memory allocated by ZEDA is filled with zeros; of a text only what allocates, and the failures of the type and the size, are kept. |
| C99 | `zPH3DAlloc`, `zPH3DDestroy`, `zPH3DClone`, `zPH3DMirror`, `zPH3DScale`, `zPH3DFlip`, `zPH3DXform` on memory with blocks of vertices and blocks of faces that point into them (`Model/MemPH.lean`) | Allocation succeeds and memory allocated by ZEDA is filled with zeros; normals, functions of the vertices, left out (they are in `Model/PH.lean`). |
| C60, C61 | principal components, normals, registration; the memory of the samples of `zVec3DDataICP` (`Model/DataMem.lean`, tree left out) | bilinear forms of means; perturbation of eigenvectors |

## 6. What the code does not do (properties refuted)

Each entry is a theorem showing the negation, for concrete or for all inputs.

* Singular 3x3 matrices are never reported by the inverse (`C05_singular_not_reported`, `C05_singular_garbage`).
* Aliased calls that corrupt data: `C02_*_hazards`; a 3x3 matrix stored where the product with a 6D vector is written
  (`C02_mat3_vec6_hazard`).
* C++ `operator*` of 2D frames transforms instead of cascading (`C13_2D_opMul_not_cascade`); the 6x6 matrix
  constructor and `zMat6DCreate` order their blocks differently (`C14_ctor_ne_create`).
* Sub-tolerance triangles: wrong nearest point (`C20_small_triangle_wrong`).
* `zIntersectPlane3D` stores the address of a local variable (`C24_intersectPlane_dangling`); the margin of
  `zPlane3DPointIsOn` is not a distance (`C24_pointIsOn_not_distance`).
* Cylinder distance has the wrong sign inside; capsule inside test inverted (`C25_*`).
* k-d trees: a point for which there is no memory leaves the size one too large, and the array made from the tree has a vector that was
  never added (`C28_noMemory_false`; insertions with memory are correct).
* Octree: points outside the region within the tolerance are missed (`C32_not_exact_outside`,
  `C33_not_exact_outside`), unification loses points (`C34_*`).
* Adding to an array set after a rewind overwrites (`C35_array_rewind_add`).
* The Minkowski difference of point sets uses only the first point of the first set (`C38_*`).
* Sphere and lathe meshes are not consistently oriented (`C41_sphere_not_closed`, `C41_lathe_not_closed`), one division
  overflows (`C41_div_one_overflow`), torus normals are stale (`C41_torus_normals_stale`), capsule divisions not
  divisible by four leave facets unassigned (`C41_capsule_unassigned`).
* Ear clipping without an ear gives a wrong area (`C42_area_wrong`).
* Terrain: points out of range update cells (`C44_out_of_range_updates`), stale planes (`C44_ident_stale`), bad reads in
  the last row and column, 0/0 on flat maps (`C45_*`).
* Hue 360 (`C46_hue360_violation`), negative hue, setters without clamping (`C47_unclamped_setters`), hexadecimal
  strings with undefined results (`C47_hex_undefined`).
* ZTK: black colours and transparent materials written by `zOpticalInfoToZTK` are read back white and opaque
  (`C53_optic_toZTK_wrong`, `C53_optic_simple_wrong`); the result depends on the order of keys for elliptic cylinders
  (`C53_ecyl_ref_first`) and polyhedra (`C53_ph_face_first`); negative face indices are not rejected
  (`C53_ph_negative`).
* Polyhedra of zero volume (`C49_zero_volume`).
* GJK reports false contacts and misses contacts (`C51_false_contact`, `C51_missed_contact`).
* At zero tolerance GJK answers false for contacts found on an edge (`C51_return_partial`).
* MPR searches the first portal for ever on some sets in contact (`C65_hang`) and reports a contact for disjoint hulls after
  a tie in `_zMPRExpandPortal` (`C65_false_contact`).
* `zBREPTruncPH3D` ignores that a degenerate face has no plane and cuts with an uninitialised one (`C67_degenerate`).
* `zBREPMerge` frees a vertex of the second solid that the first one has, but keeps the edges that end there, unless the
  other end is shared, too (`C68_merge_sound_iff`, `C68_dangling`); the end points of moved edges are never reassigned.
* Coincident faces are kept from both solids: the intersection of a polyhedron with itself has twice its volume (`C68_self`).
* `zPH3DTruncBREP` and `zIntersectPH3DBREP` lose all cells of their boundary representations when they fail (`C67_mem_false`,
  `C68_mem_false`).
* `zIntersectPH3DBREPFast` returns an empty polyhedron for overlapping axis-aligned boxes (`C68_fast_boxes`).
* `zVec3DAAError` reports no error for opposite vectors (`C64_aaError_opposite`).
* Triangle/triangle and triangle/box intersections are missed, result array overflows (`C52_*`).
* Polyhedron: bounding box always includes the origin (`C55_aabb_loose`), positive distance to coplanar facets
  (`C55_coplanar_wrong`), inside test needs convexity (`C55_inside_nonconvex`).
* Elliptic cylinder without reference vector has a wrong second radial vector (`C56_ecyl_noref_wrong`,
  `C57_ecyl_noref_inside_wrong`).
* Mirrored boxes and ellipsoids have left-handed axes (`C58_mirror_lefthanded`).
* Singular value decomposition: `v` is not orthogonal for singular matrices, rank compared in squares (`C59_*_wrong`).
* Registration: three points or coplanar points never give a rotation, mirrored sets give a reflection, scaled sets are
  misplaced (`C61_ident_*_wrong`); normals with radius zero are uninitialised (`C61_normal_zero_radius`); the iteration that reaches the tolerance loses its two lists of samples (`C61_icp_mem_false`).
* Compounds: the negative distance of a cylinder below the point beats every nearer shape
  (`C62_multi_closest_wrong`), a capsule inverts the inside test (`C62_multi_inside_wrong`), and the transformation does
  not check that the destination has the type of the source (`C62_xform_type`).
* Planar hulls: the closest point of a point inside or above the hull is reported at infinity
  (`C63_closest_inside`); the search stops at the first increase of the distance and misses the nearest edge
  (`C63_closest_wrong`).
* Hulls in space are lost when the tolerance is coarse for the data: points equal up to the tolerance give NULL
  (`C69_coarse`); the theorems of C69 ask for a tolerance that resolves the data, zero included.
* Oriented bounding box: the volume is not minimised; the box of a regular tetrahedron has twice the volume of the cube
  around it (`C70_volume_wrong`). Its height and its base are minimal in the sense of `C70_height`,
  `C70_rect`.
* `zVec2DDataBoundingBallRecursive` returns disks that do not contain the data (`C39_recursive2D_wrong`): the recursion ends
  in the smallest disk of the shell instead of the smallest disk with the shell on its circle.
* Delaunay triangulation: fails on valid data because of that disk (`C71_fails`); the triangles need not fill the convex hull,
  three corners of a flat triangle give no triangle at all (`C71_hull_wrong`); unless there are no triangles, neighbour pointers
  lead to freed triangles, and `zDelaunayTri2DListVoronoi2DFPrint` follows them (`C71_rest`, last part); a single point divides
  by zero (`C71_single`), no points leave the list uninitialised (`C71_empty`); if memory runs out for some of the three
  triangles of a point, the others are freed and stay in the list (`C71_mem_false`).
* Voronoi diagram: the corners of the enclosing triangle take part, so the outer cells are cut off and the cells do not cover the
  plane (`C72_uncovered`); fails with the triangulation (`C72_fails`); without memory for some triangles it frees others
  twice (`C72_mem_false`), and without memory for nodes it reports success (`C72_nodes_false`). Not modelled: the counter of the list of nodes, which
  `zListPurge` decrements and `zListCellInsertNext` (without the list as argument) cannot restore.
* NURBS: `zNURBS3DClosest` accepts any stationary point of the distance (`C73_closest_false`) and stores parameters of the step
  after the point it stores (`C73_closest_param_false`); `zNURBS3DToPH` leaves a vertex at an unset place where a zero weight makes the
  evaluation fail (`C73_ph_false`); the text of a curve is rejected (`C73_text_curve_false`).
* `zNURBS3DECyl`, `zNURBS3DCyl` and `zNURBS3DBox` give the knots 0,0,1,1,2,2 to a curve of degree 1, which makes it jump: the
  surface has the two ends of the shape and no side (`C74_ecyl_false`, `C74_cyl_false`, `C74_box_false`).
* `zIntersectPH3D` moves faces nearer to the base point than 1e-5 away from it, so the result can exceed the intersection
  (`C75_clamp_false`). The base point is pushed only twice the tolerance behind a face, so this is the usual case when the midpoint of
  the contact is on the boundary.
* `zGJKDepth` returns false when the loop of `zGJK` ends with one slot, as it does when the first points of the two sets are equal;
  so a polyhedron has no intersection with itself (`C76_first_false`, `C76_intersect_false`).
* Reading an STL file searches the nearest vertex in an empty tree: `zVec3DTreeNN` reads `point->e[-1]` and the uninitialised point
  of the root.  If the memory holds the first vertex (the origin in cleared memory) the vertex is lost (`C77_first_vertex_false`).
* An STL solid without a name loses its first facet, also when written by `zPH3DFWriteSTL_ASCII` with an empty name
  (`C77_no_name_false`, `C77_empty_name_false`); a facet with two vertices is read with uninitialised coordinates
  (`C77_few_vertices_undefined`); `zPH3DFWriteSTL_Bin` reads 80 bytes from the name (`C77_short_name_undefined`); a truncated
  binary file is filled with copies of the last facet (`C77_truncated_false`).
* PLY polygons with more than three corners are cut into triangles `0 1 k`, which overlap and do not cover the polygon
  (`C78_polygon_false`, `C78_fan`); without a column `z` the first column is used (`C78_no_z_false`); range grids of binary files are
  misread (`C78_range_grid_false`); indices are not checked (`C78_index_undefined`, `C78_faces_first_undefined`,
  `C78_property_first_undefined`).
* OBJ polygons keep three corners (`C79_polygon_cut`, `C79_polygon_false`); relative references and large references are undefined
  (`C79_relative_undefined`, `C79_index_undefined`); faces above their vertices get normals of uninitialised memory
  (`C79_faces_first_false`); two corners make a triangle with vertex 1 (`C79_two_corners_false`).
* PCD binary data with a point that is not finite, or fewer points than announced, are read with an additional point at the viewpoint
  (`C80_extra_point_false`); an empty line of a text is a point (`C80_blank_line_false`); keys that are unknown or out of order are
  compared with NULL (`C80_key_undefined`, `C80_order_undefined`); a missing TYPE line indexes a table by -1
  (`C80_no_type_undefined`).
- Prisms and pyramids: on a loop whose reference normal vanishes the faces of the bottom overlap and the surface is open
  (`C81_prism_open`); with less than three vertices a face that was never stored is read (`C81_prism_total`, `C81_pyramid_total`).
- `zMat3DOrthonormalize`: `zAxis` is a signed character type and `%` keeps the sign, so that a negative axis addresses memory before
  the matrix (`C82_orthonormalize_negative`); parallel columns are not reported and give a singular matrix (`C82_orthonormalize_parallel`);
  the axis pairs (Y,X), (Z,Y), (X,Z) give a left-handed matrix (`C82_orthonormalize`).
- `zMat3DEigPower` returns 3/5 for diag(1,-1,0) from (1/2,1/4,0) after any number of iterations (`C82_power_false`);
  `zMat3DEigPowerInv` does not report singular matrices (`C82_power_inv_singular`).
- `zTerraFPrintZTK` does not write the estimators of the cells (`C83_estimator_lost`); `zTerraFromZTK` computes the bounds when it meets
  `size`, so a file with `size` before `origin` and `resolution` gives `xmax < xmin` (`C83_order_false`); `zMapNetFromZTK` ignores the
  value of `_ZTKEvalTag`: a net with an unreadable map is returned as read, without the maps behind it (`C83_net_failure`).
- `_zVec3DOctantUpdateNormal` takes the moments of the points about the center of the octant instead of their barycenter: four points of a
  horizontal plane off the center get a horizontal normal (`C84_octant_normal_false`). Refining the resolution adds the
  moments of the points to those already there, so that old points count twice (`C84_refine_false`); the normal of a
  unified octant is the sum of eight unit vectors (`C84_unify_norm_false`).
- `zTextureClone` allocates coordinates and faces but copies neither, nor depth, bump identifier and image size (`C85_clone_false`), and fails
  on textures without file name, coordinates or faces (`C85_clone_null`); `_zTextureFaceFromZTK` tests only the upper bound of the indices
  (`C85_negative`); the index of a coordinate in the file is ignored up to a warning (`C85_index_ignored`); a depth of zero makes reading fail
  (`C85_depth_zero`).
- `zShape3DFromZTK`: a `type` before `mirror` makes `zShape3DMirror` destroy the shape, with the name, the optical information and the texture
  read before (`C86_mirror_name_lost`); a `type` after it puts a fresh body in the place of the image, and the fields of the body are not read
  (`C86_mirror_then_type`); an `optic` before `mirror` is replaced (`C86_mirror_optic`); a `rot` before `att` is lost (`C86_order`);
  a shape that names itself in `mirror` is copied before it has a class (`C86_mirror_self`).
- `zMultiShape3DFromZTK` ignores the result of `_ZTKEvalTag`: after a section that cannot be read the compound is returned with shapes that have
  no class (`C87_failed_false`); optical information is found only before the shape (`C87_optic_after`).  `zMultiShape3DClone` leaves the shapes
  with the textures of the original (`C87_clone_texture`), and takes the difference of NULL and the buffer for a shape without optical
  information (`C87_clone_no_optic`).
- `_zPH3DLoopArcFromZTK`: for a half circle the angle is `atan2(0, -)` and a clockwise arc runs counterclockwise (`C88_arc_half`).
  `_zPH3DLoopFromZTK` leaves the loop at an arc that cannot be drawn and returns what was read (`C88_arc_small_false`).  The order of keys
  matters: a prism before its loop reads a face that does not exist (`C88_order_false`), before its vertices it is made of zero vectors
  (`C88_order_vert`).
- `_zDAEEvalXform`: `translate` is added to the position and `rotate` multiplied from the left, so only translations, one rotation and scales
  in this order give what COLLADA says (`C89_move_false`, `C89_grow_false`, `C89_turns_false`); `matrix` overwrites (`C89_matrix_false`).  A
  geometry has one frame: shown twice it appears at the last place only, not shown it appears all the same (`C89_twice_false`, `C89_hidden_false`).
  `_zDAEMeshList2PH3D` leaves faces with NULL vertices where a polygon is not a triangle and succeeds (`C89_polygon_false`).  The list of meshes
  is not initialized without `library_geometries` or without `COLLADA` (`C89_library_false`); a missing array is used as NULL (`C89_source_false`);
  a fourth named parameter of an array is written behind `accessor[3]` (`C89_accessor_false`).
- `zECyl3DToPH` tests `zVec3DNormalizeDRC(&d) < 0`, which never holds, so an elliptic cylinder without length is accepted, unlike the other
  classes (`C91_ecyl_false`).  `zMultiShape3DToPH` returns NULL with the shapes before the refused one already converted (`C91_multi_false`).
- `_zVec3DOctantToAABox3DList` adds the root of an octree without points, so `zMultiShape3DFromOctree` makes one box as large as the region and
  its warning about empty octrees never occurs (`C92_empty_false`).  After `zVec3DOctreeUnifyOctant` a box may fill free space (`C92_unify_false`).
- `_zShape3DImportFromZTK` on a ZTK file calls `zShape3DFromZTK`, whose `zShape3DInit` forgets name, optical information and texture read
  before the import (`C93_ztk_false`); a scale treats any body as a polyhedron (`C93_scale_false`); a file importing itself recurses for ever
  (`C93_self_false`); `zShape3DReadFile` passes a NULL suffix to `strcmp` (`C93_suffix_false`).
- `zEPIsIdent` tests only for (1,0,0,0): the quadruple (-1,0,0,0), the same rotation by nothing, fails it (`C94_ep_false`).
- `zMat2D::transpose()` transposes the object itself (include/zeo/zeo_mat2d.h:506), unlike the method of `zMat3D` (`C95_transpose_false`).
- `zMat2D::inv(m)` writes the inverse of its argument into the object, `zMat3D::inv(m)` the inverse of the object into the argument (`C95_inv_false`).
- `zMat3D::mulT(const zVec6D&)` calls `zMulMat3DVec6D`: the product with the matrix, not its transpose (include/zeo/zeo_mat3d.h:999; `C95_mulT_false`).
- `v / 0` is zero while `v /= 0` leaves `v`; `zVec6D::div(0)` and `zEP::create(0,0,0,0)` dereference NULL (`C95_div_false`, `C95_ep`).
- `zVec3DOctree::nearestNeighbor` of an octree without points returns an uninitialised pointer (`C95_nearest`).
- The destructor of a `zShape3D` that was only declared, or whose type is unknown, follows a null `com`; `zShape3D s("box")` leaves the name uninitialised and its destructor frees it (`C96_life_false`).
- `zShape3DQueryAssign` and the `Create` functions lose the body the shape had (`C96_leaks_false`).
- `zMultiShape3DFromZTK` ignores failures of its shapes; a file with an unknown type gives a set of shapes that `zMultiShape3DDestroy` cannot destroy (`C96_read_false`).
- `zShape3DMirror` onto itself reads the freed body; with an invalid axis it destroys the destination before it reports the error (`C96_mirror_false`).
- A shape may be destroyed twice (`destroy()` and the destructor) unless it is a NURBS: `zNURBS3DDestroy` follows the null body (`C96_twice`).
- `zLine3DCommonPerp` of two lines that meet makes a line whose direction is the zero vector (`C24_commonPerpLine_false`).
- `zRGBByStr` takes a ratio such as `.5:1:1`, which does not begin with a digit, for the name of a colour, and gives black (`C47_string_false`).
- `zShape3DMirror` of a NURBS shape always fails, since `_zShape3DNURBSMirror` (src/zeo_shape3d_nurbs.c:24-26) copies into a NURBS without memory; the destination keeps a null body and the methods of NURBS and cannot be destroyed (`C97_mirror_false`).
- `zShape3DNURBSAlloc` ignores the failure of `zNURBS3DAlloc` (`C97_alloc_false`), `zShape3DXform` that of `zNURBS3DXform` (`C97_xform_false`).
- `zShape3DInertiaMass` and `zShape3DInertia` of a NURBS shape use an uninitialised center and add to whatever the result held (`C97_inertia_false`); no point is inside a NURBS shape (`C97_inside_false`).
- `zMapFromZTK` initialises the map first, so that reading into a map in use loses its name, body and grid (`C98_used_false`).
- `zPH3DClone`, and with it `zPH3DMirror`, `zPH3DScale` and `zPH3DFlip`, allocate the destination before reading the source: with one polyhedron as both, the result is undefined or all zero and its memory is lost (`C99_self_false`).
- `zPH3DXform` goes by the number of vertices of the destination and reads behind a smaller source (`C99_xform_false`).
- `zVec3DOctreeDestroy` leaves the pointers to the suboctants: `destroy()` followed by the destructor of the class frees them twice
  (`C84_mem_twice_false`).  `zVec3DOctreeInit` and `zVec3DDataToOctree` on an octree in use lose its memory (`C84_mem_init_false`).
  If memory runs out while octants are divided, the cell taken from the list is lost with its point (`C84_mem_divide_false`).
- `zVec2DData::toAddrList` and `zVec3DData::toAddrList` call `zVecXDDataAssignAddrList` instead of `zVecXDDataToAddrList`: the list stays as it is,
  and the dataset becomes a view of it, whose former memory is lost (`C35_toAddrList_false`).  Initialising or assigning a dataset in use always loses memory (`C35_mem_life`).
- A texture loses memory if it is allocated or cloned into while in use, or if a file gives its name or the name of its image twice (`C85_mem_life`).

Observed while reading and not modelled: `_zNURBS3DEllipsInitKnot` reports the number of knots of axis 0 for both axes; the comment on
`zNURBS3DAlloc` contradicts itself; the compound queries read the first shape of an empty compound;
`zShape3DContigVert` casts any body to a polyhedron; `zShape3DMirror` destroys the destination before it checks the
axis; an error in `zMultiShape3DVertData` lets `zMultiShape3DBoundingBall` destroy the data twice, which is harmless (`C35_mem_ball`); `zTextureClone` does not copy the contents; `zSphere3DFit` leaks;
`zMultiShape3DClone` computes optic indices from NULL pointers and shares textures with the original; `zMat6DFPrint` prints transposed blocks; `zIntersectPH3D` jumps to the destruction of a polyhedron that nothing has initialised, but only where a transformation fails, which never happens (`C75_ch_init`).

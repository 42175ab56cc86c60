{"id": "C01", "title": "3D cross, triple and Grassmann products satisfy the vector-algebra laws", "statement": "zVec3DOuterProd(u,v) is orthogonal to u and v, antisymmetric, has squared norm |u|^2|v|^2-(u.v)^2, and zVec3DGrassmannProd(a,b,c) is the determinant of [a b c]; zVec3DTripleProd(a,b,c) is a x (b x c) = (a.c)b-(a.b)c.", "quantifier": "all triples of 3D vectors", "why_tests_cant": "the claim ranges over a continuum of real-valued inputs; a unit test checks finitely many", "anchors": ["src/zeo_vec3d.c:zVec3DOuterProd,zVec3DGrassmannProd,zVec3DTripleProd", "include/zeo/zeo_vec3d.h:_zVec3DOuterProd"]}
{"id": "C02", "title": "Writing the result over an operand gives the same result", "statement": "For every in-place (DRC) variant, and for every out-of-place vector/matrix/frame operation whose output pointer equals an input pointer, the stored result equals the result of the non-aliased call. Where the code violates it, the operations concerned are named.", "quantifier": "all operand values and all choices of output location among the operands", "why_tests_cant": "the claim ranges over a continuum of real-valued inputs; a unit test checks finitely many, and in-place use is an aliasing pattern tests rarely vary", "anchors": ["include/zeo/zeo_vec3d.h", "include/zeo/zeo_mat2d.h", "src/zeo_mat3d.c:zMat3DT", "src/zeo_frame3d.c:zFrame3DCascade"]}
{"id": "C03", "title": "Division by a scalar fails exactly on zero and leaves the destination untouched", "statement": "zVec2DDiv, zVec3DDiv, zVec6DDiv, zCoord2DDiv, zMat3DDiv and their DRC forms return NULL and leave the destination unchanged if and only if k = 0, and otherwise store v/k.", "quantifier": "all vectors and all scalars", "why_tests_cant": "the claim ranges over a continuum of real-valued inputs; a unit test checks finitely many", "anchors": ["src/zeo_vec3d.c:zVec3DDiv", "src/zeo_vec2d.c:zVec2DDiv", "src/zeo_vec6d.c:zVec6DDiv", "src/zeo_coord2d.c"]}
{"id": "C04", "title": "Normalization yields a unit vector in the same direction, or reports degeneracy", "statement": "zVec3DNormalize(v,nv) returns |v| and stores the unit vector v/|v| when |v| exceeds the tolerance; otherwise it reports failure (0 in 3D, -1 in 2D) and does not divide by zero.", "quantifier": "all vectors", "why_tests_cant": "the claim ranges over a continuum of real-valued inputs; a unit test checks finitely many", "anchors": ["src/zeo_vec3d.c:zVec3DNormalize", "src/zeo_vec2d.c:zVec2DNormalize"]}
{"id": "C05", "title": "A 3x3 inverse is a two-sided inverse, and a singular matrix is reported", "statement": "For every non-singular m, zMat3DInv(m,im) stores im with m*im = im*m = identity, and zMulInvMat3DVec3D / zMulInvMat3DMat3D solve m*x = v. For every singular m they return NULL as documented.", "quantifier": "all 3x3 matrices", "why_tests_cant": "the claim ranges over a continuum of real-valued inputs; a unit test checks finitely many", "anchors": ["src/zeo_mat3d.c:zMat3DInv,zMulInvMat3DVec3D,zMulInvMat3DMat3D,_zBalancingMat3D", "include/zeo/zeo_mat3d.h:zMat3DInv"]}
{"id": "C06", "title": "Matrix products, transpose, determinant and adjugate obey matrix algebra", "statement": "Products are associative and distribute, (AB)^T = B^T A^T, the T-variants equal products with explicit transposes, det(AB)=det A det B, and A*adj(A) = det(A) I, in 2D and 3D.", "quantifier": "all 2x2 and 3x3 matrices", "why_tests_cant": "the claim ranges over a continuum of real-valued inputs; a unit test checks finitely many", "anchors": ["src/zeo_mat3d.c:zMat3DDet,zMat3DAdj,zMulMat3DMat3D,zMulMat3DTMat3D,zMulMat3DMat3DT", "src/zeo_mat2d.c"]}
{"id": "C07", "title": "A 2x2 inverse solves linear systems and rejects singular matrices", "statement": "zMat2DInv / zMulInvMat2DVec2D / zMulInvMat2DMat2D store the exact solution when the determinant is not tiny and return NULL without dividing otherwise.", "quantifier": "all 2x2 matrices and right-hand sides", "why_tests_cant": "the claim ranges over a continuum of real-valued inputs; a unit test checks finitely many", "anchors": ["src/zeo_mat2d.c:zMat2DInv,zMulInvMat2DVec2D,zMulInvMat2DMat2D"]}
{"id": "C08", "title": "Every attitude constructor produces a proper rotation", "statement": "zMat3DFromZYX, zMat3DFromZYZ, zMat3DFromAA, zMat3DFromEP (unit quaternion), zMat2DCreateAngle and zMat3DRotRoll/Pitch/Yaw of a rotation are orthonormal with determinant +1.", "quantifier": "all angles, angle-axis vectors and unit quaternions", "why_tests_cant": "the claim ranges over a continuum of real-valued inputs; a unit test checks finitely many", "anchors": ["src/zeo_mat3d.c:zMat3DFromZYX,zMat3DFromZYZ,zMat3DFromAA", "src/zeo_ep.c:zMat3DFromEP", "src/zeo_mat2d.c:zMat2DCreateAngle"]}
{"id": "C09", "title": "Z-Y-X and Z-Y-Z Euler angles round-trip", "statement": "For every rotation matrix R, converting to z-y-x (or z-y-z) Euler angles and back yields R, including at gimbal lock.", "quantifier": "all rotation matrices", "why_tests_cant": "the claim ranges over a continuum of real-valued inputs; a unit test checks finitely many, and gimbal-lock configurations have measure zero", "anchors": ["src/zeo_mat3d.c:zMat3DToZYX,zMat3DFromZYX,zMat3DToZYZ,zMat3DFromZYZ"]}
{"id": "C10", "title": "Angle-axis vectors round-trip through rotation matrices", "statement": "For every rotation matrix R, zMat3DFromAA(zMat3DToAA(R)) = R; zVec3DRot by an angle-axis vector equals multiplication by zMat3DFromAA.", "quantifier": "all rotation matrices, all angle-axis vectors", "why_tests_cant": "the claim ranges over a continuum of real-valued inputs; a unit test checks finitely many", "anchors": ["src/zeo_mat3d.c:zMat3DToAA,zMat3DFromAA", "src/zeo_vec3d.c:zVec3DRot"]}
{"id": "C11", "title": "Unit quaternions represent rotations faithfully", "statement": "zEPRotVec3D equals multiplication by zMat3DFromEP, preserves norms, zEPCascade(e1,e2) is the rotation e1 followed by e2, and zMat3DFromEP(zMat3DToEP(R)) = R for every rotation R.", "quantifier": "all unit quaternions, all vectors, all rotation matrices", "why_tests_cant": "the claim ranges over a continuum of real-valued inputs; a unit test checks finitely many", "anchors": ["src/zeo_ep.c:zEPRotVec3D,zMat3DFromEP,zMat3DToEP,zEPCascade"]}
{"id": "C12", "title": "Quaternion interpolation hits its endpoints and stays on the unit sphere", "statement": "zEPInterDiv(e1,e2,t) is a unit quaternion for every t, is the rotation e1 at t=0 and e2 at t=1.", "quantifier": "all pairs of unit quaternions and all ratios", "why_tests_cant": "the claim ranges over a continuum of real-valued inputs; a unit test checks finitely many", "anchors": ["src/zeo_ep.c:zEPInterDiv"]}
{"id": "C13", "title": "Coordinate frames form a group acting on points", "statement": "zXform3DInv undoes zXform3D, zFrame3DCascade composes the actions and is associative, zFrame3DInv is the group inverse, zFrame3DXform(f1,f2) is inv(f1)f2; distances between points are preserved. The same in 2D.", "quantifier": "all frames with orthonormal attitude, all points, all chains of frames", "why_tests_cant": "the claim ranges over a continuum of real-valued inputs; a unit test checks finitely many", "anchors": ["src/zeo_frame3d.c", "include/zeo/zeo_frame3d.h", "src/zeo_frame2d.c"]}
{"id": "C14", "title": "6D vector and matrix operations equal 6-dimensional linear algebra", "statement": "zMulMat6DVec6D, zMulMat6DMat6D, zMulMat6DTVec6D, zMat6DT, zMat6DRow/Col, zMat6DDyad agree entry by entry with the 6x6 matrix whose blocks they store.", "quantifier": "all 6x6 block matrices and 6D vectors, all row/column indices", "why_tests_cant": "the claim ranges over a continuum of real-valued inputs; a unit test checks finitely many", "anchors": ["src/zeo_mat6d.c", "include/zeo/zeo_mat6d.h", "src/zeo_vec6d.c"]}
{"id": "C15", "title": "Moving the reference point of a twist and a wrench preserves power", "statement": "Shifting velocity by zVec6DLinShift and wrench by zVec6DAngShift to the same point, and transforming both by a frame, leaves their inner product unchanged.", "quantifier": "all twists, wrenches, shifts and frames", "why_tests_cant": "the claim ranges over a continuum of real-valued inputs; a unit test checks finitely many", "anchors": ["src/zeo_vec6d.c:zVec6DLinShift,zVec6DAngShift", "src/zeo_frame3d.c:zXform6DLin,zXform6DAng"]}
{"id": "C16", "title": "Euler-angle rates and angular velocity convert back and forth", "statement": "zVec3DZYXVel2AngVel and zVec3DAngVel2ZYXVel (and the ZYZ pair) are mutually inverse away from the singular attitude; at the singular attitude the destination is left unchanged.", "quantifier": "all Euler angles and rates", "why_tests_cant": "the claim ranges over a continuum of real-valued inputs; a unit test checks finitely many", "anchors": ["src/zeo_vec3d.c:zVec3DZYXVel2AngVel,zVec3DAngVel2ZYXVel,zVec3DZYZVel2AngVel,zVec3DAngVel2ZYZVel"]}
{"id": "C17", "title": "The closest point of an axis-aligned box is the true projection", "statement": "zAABox3DClosest (2D too) returns a point in the box no other point of the box is nearer than, distance 0 exactly for points of the closed box; zAABox3DSqrDistFromPoint is the square of that distance.", "quantifier": "all boxes and all query points", "why_tests_cant": "the claim ranges over a continuum of real-valued inputs; a unit test checks finitely many", "anchors": ["src/zeo_elem3d_box.c:zAABox3DClosest,zAABox3DSqrDistFromPoint", "src/zeo_elem2d_box.c"]}
{"id": "C18", "title": "Closest point of an oriented box", "statement": "zBox3DClosest returns the nearest point of the oriented box and its distance, for every frame; zBox3DPointIsInside agrees with the frame-local inequalities.", "quantifier": "all oriented boxes and query points", "why_tests_cant": "the claim ranges over a continuum of real-valued inputs; a unit test checks finitely many", "anchors": ["src/zeo_elem3d_box.c:zBox3DClosest,zBox3DPointIsInside"]}
{"id": "C19", "title": "Closest point of a segment", "statement": "zEdge2DClosest/zEdge3DClosest return the point of the segment nearest to the query, for every non-degenerate segment; barycentric weights are non-negative and sum to one.", "quantifier": "all segments with distinct ends, all query points", "why_tests_cant": "the claim ranges over a continuum of real-valued inputs; a unit test checks finitely many", "anchors": ["include/zeo/zeo_elemxd.h:zEdge closest", "src/zeo_elem3d.c:zEdge3DClosestFromOrigin"]}
{"id": "C20", "title": "Closest point of a triangle in space", "statement": "zTri3DClosest returns the point of the triangle nearest to the query and zTri3DClosestFromOrigin's weights are barycentric coordinates of it, for every non-degenerate triangle.", "quantifier": "all non-degenerate triangles, all query points", "why_tests_cant": "the claim ranges over a continuum of real-valued inputs; a unit test checks finitely many", "anchors": ["src/zeo_elem3d.c:zTri3DClosestFromOrigin,zTri3DClosest"]}
{"id": "C21", "title": "Closest point of a tetrahedron", "statement": "zTetra3DClosestFromOrigin returns the nearest point of the tetrahedron to the origin with barycentric weights, and 0 exactly when the origin is inside.", "quantifier": "all non-degenerate tetrahedra", "why_tests_cant": "the claim ranges over a continuum of real-valued inputs; a unit test checks finitely many", "anchors": ["src/zeo_elem3d.c:zTetra3DClosestFromOrigin"]}
{"id": "C22", "title": "Sphere and disk queries", "statement": "zSphere3DDistFromPoint is the signed distance, zSphere3DClosest returns a point on/in the sphere at that distance, and zSphere3DFrom2/From3/From4 pass through all their points.", "quantifier": "all spheres, all query points, all affinely independent point tuples", "why_tests_cant": "the claim ranges over a continuum of real-valued inputs; a unit test checks finitely many", "anchors": ["src/zeo_elem3d_sphere.c", "src/zeo_elem2d_disk.c"]}
{"id": "C23", "title": "Triangle centres", "statement": "zTri3DCircumcenter is equidistant from the vertices, zTri3DIncenter equidistant from the sides, zTri3DOrthocenter on the three altitudes, zTri3DBarycenter the mean.", "quantifier": "all non-degenerate triangles", "why_tests_cant": "the claim ranges over a continuum of real-valued inputs; a unit test checks finitely many", "anchors": ["src/zeo_elem3d.c", "include/zeo/zeo_elemxd.h"]}
{"id": "C24", "title": "Lines and planes: projection, distance and intersection", "statement": "zPlane3DProjPoint lies on the plane and is the nearest point; zIntersectPlane3D's line lies in both planes; zLine3DCommonPerpEnd joins two skew lines perpendicularly and zDistLine3DLine3D is the minimal distance.", "quantifier": "all planes, lines and points", "why_tests_cant": "the claim ranges over a continuum of real-valued inputs; a unit test checks finitely many", "anchors": ["src/zeo_elem3d.c:zPlane3DProjPoint,zLine3DCommonPerpEnd", "src/zeo_col.c:zIntersectPlane3D"]}
{"id": "C25", "title": "Cylinder, cone and capsule distance queries", "statement": "zCyl3DClosest, zCone3DClosest, zCapsule3DClosest return the nearest point of the solid and its (non-negative) distance; zXXX3DDistFromPoint returns the same number; zXXX3DPointIsInside with margin 0 accepts no point outside the solid.", "quantifier": "all solids with positive height and radius, all query points", "why_tests_cant": "the claim ranges over a continuum of real-valued inputs; a unit test checks finitely many", "anchors": ["src/zeo_shape3d_cyl.c", "src/zeo_shape3d_cone.c", "src/zeo_shape3d_capsule.c"]}
{"id": "C26", "title": "Axis-aligned boxes: merge and intersection are lattice operations", "statement": "zAABox3DMerge is the smallest box containing both, zIntersectAABox3D is exactly the set intersection, zColChkAABox3D holds iff the interiors meet.", "quantifier": "all pairs of axis-aligned boxes", "why_tests_cant": "the claim ranges over a continuum of real-valued inputs; a unit test checks finitely many", "anchors": ["src/zeo_elem3d_box.c:zAABox3DMerge", "src/zeo_col_box.c:zColChkAABox3D,zIntersectAABox3D"]}
{"id": "C27", "title": "The oriented-box test never misses a collision", "statement": "If two oriented boxes share an interior point, zColChkBox3D returns true.", "quantifier": "all pairs of oriented boxes", "why_tests_cant": "the claim ranges over a continuum of real-valued inputs; a unit test checks finitely many", "anchors": ["src/zeo_col_box.c:zColChkBox3D"]}
{"id": "C28", "title": "A kd-tree stores exactly the inserted points with consecutive ids", "statement": "After any sequence of zVec3DTreeAddPoint the tree's size is the number of insertions, every node's id is its insertion rank, zVec3DTreeToArray returns the insertion sequence, and every node lies in its recorded region on the correct side of each ancestor.", "quantifier": "all insertion histories", "why_tests_cant": "the claim ranges over all operation histories of unbounded length; a test runs a few", "anchors": ["src/zeo_vec3d_tree.c:zVec3DTreeAddPoint,zVec3DTreeToArray,zVec3DArrayToTree"]}
{"id": "C29", "title": "kd-tree nearest neighbour equals exhaustive search", "statement": "For every non-empty tree built by insertions and every query, zVec3DTreeNN returns an inserted point at the minimum distance and that distance.", "quantifier": "all insertion histories and query points", "why_tests_cant": "the claim ranges over all operation histories of unbounded length; a test runs a few", "anchors": ["src/zeo_vec3d_tree.c:zVec3DTreeNN"]}
{"id": "C30", "title": "kd-tree vicinity equals exhaustive filtering", "statement": "zVec3DTreeVicinity returns exactly the inserted points at distance strictly less than r, each once.", "quantifier": "all insertion histories, query points and radii", "why_tests_cant": "the claim ranges over all operation histories of unbounded length; a test runs a few", "anchors": ["src/zeo_vec3d_tree.c:zVec3DTreeVicinity"]}
{"id": "C31", "title": "An octree keeps every accepted point through insertion, division and merging", "statement": "After any sequence of zVec3DOctreeAddPoint and changes of resolution, the multiset of stored points equals the accepted points; points outside the region are rejected.", "quantifier": "all operation histories", "why_tests_cant": "the claim ranges over all operation histories of unbounded length; a test runs a few", "anchors": ["src/zeo_vec3d_octree.c:zVec3DOctreeAddPoint,zVec3DOctreeChangeResolution"]}
{"id": "C32", "title": "Octree nearest neighbour equals exhaustive search", "statement": "For every octree built by insertions with a non-empty point set, zVec3DOctreeNN returns a stored point at minimum distance.", "quantifier": "all insertion histories and query points", "why_tests_cant": "the claim ranges over all operation histories of unbounded length; a test runs a few", "anchors": ["src/zeo_vec3d_octree.c:zVec3DOctreeNN"]}
{"id": "C33", "title": "Octree vicinity equals exhaustive filtering", "statement": "zVec3DOctreeVicinity returns exactly the stored points closer than r.", "quantifier": "all insertion histories, query points and radii", "why_tests_cant": "the claim ranges over all operation histories of unbounded length; a test runs a few", "anchors": ["src/zeo_vec3d_octree.c:zVec3DOctreeVicinity"]}
{"id": "C34", "title": "Unifying octants loses no points", "statement": "After zVec3DOctantUnify the octree still contains every point it contained.", "quantifier": "all octrees reachable by insertions", "why_tests_cant": "the claim ranges over all operation histories of unbounded length; a test runs a few", "anchors": ["src/zeo_vec3d_octree.c:zVec3DOctantUnify"]}
{"id": "C35", "title": "The point-set abstraction behaves like a sequence with a cursor, whatever its representation", "statement": "For every history of add/rewind/fetch, a zVec3DData of array, list or address-list kind yields on rewind-and-fetch exactly the added points in order, and the array kind refuses additions beyond capacity. A dataset never frees what belongs to the caller nor anything twice, however often it is destroyed, and gives back all memory it took, unless it is initialised or assigned anew while it has memory of its own; toAddrList of the class fills the list and leaves the dataset as it is.", "quantifier": "all operation histories over all representations", "why_tests_cant": "the claim ranges over all operation histories of unbounded length; a test runs a few", "anchors": ["include/zeo/zeo_vecxd_data.h"]}
{"id": "C36", "title": "Exhaustive nearest neighbour, vicinity and support map on point sets", "statement": "zVec3DDataNN returns a nearest stored point (or reports empty), zVec3DDataVicinity exactly the points closer than the radius, zVec3DDataSupportMap a point maximising the inner product with the direction.", "quantifier": "all finite point sets, queries and directions", "why_tests_cant": "the claim ranges over a continuum of real-valued inputs; a unit test checks finitely many", "anchors": ["include/zeo/zeo_vecxd_data.h:ZEO_VECXD_DATA_NN,ZEO_VECXD_DATA_SUPPORTMAP"]}
{"id": "C37", "title": "The axis-aligned bounding box of a point set is the tight one", "statement": "zVec3DDataAABB contains every point, each face touches a point, and the returned witnesses attain the extremes; NULL on an empty set.", "quantifier": "all finite point sets", "why_tests_cant": "the claim ranges over a continuum of real-valued inputs; a unit test checks finitely many", "anchors": ["src/zeo_bv3d_aabb.c", "src/zeo_bv2d_aabb.c"]}
{"id": "C38", "title": "The Minkowski difference is formed from all pairs", "statement": "zVec3DDataMinkowskiSub takes the hull of {v1-v2 | v1 in data1, v2 in data2}.", "quantifier": "all pairs of point sets", "why_tests_cant": "the claim ranges over a continuum of real-valued inputs; a unit test checks finitely many", "anchors": ["src/zeo_col_minkowski.c"]}
{"id": "C39", "title": "The bounding ball bounds every point when the algorithm reports no failure", "statement": "When zVec3DDataBoundingBall (2D too) finishes without the retry warning, every point of the set is within radius + tolerance of the centre.", "quantifier": "all finite point sets and every execution", "why_tests_cant": "the claim ranges over all operation histories of unbounded length; a test runs a few", "anchors": ["include/zeo/zeo_bvxd_boundingball.h", "src/zeo_bv3d_boundingball.c"]}
{"id": "C40", "title": "Polyhedron volume does not depend on the reference point and transforms correctly", "statement": "For every closed triangle mesh the summed cone volume is the same for every apex; it scales by k^3, is preserved by rigid motion, negated by flipping all faces.", "quantifier": "all closed triangle meshes, apices and transforms", "why_tests_cant": "the claim ranges over a continuum of real-valued inputs; a unit test checks finitely many", "anchors": ["src/zeo_ph3d.c:zPH3DVolume,zPH3DScale,zPH3DFlip,zPH3DXform", "src/zeo_elem3d.c:zTri3DConeVolume"]}
{"id": "C41", "title": "Generated solids are closed, consistently oriented meshes", "statement": "zPH3DCreateTorus, zPH3DCreateLathe, zCyl3DToPH, zCone3DToPH, zSphere3DToPH, zBox3DToPH, zCapsule3DToPH produce meshes where every directed edge is matched by its reverse, all indices are in range and every allocated face is filled.", "quantifier": "all division counts and section sizes", "why_tests_cant": "the claim ranges over all operation histories of unbounded length; a test runs a few", "anchors": ["src/zeo_ph3d.c:zPH3DCreateTorus,zPH3DCreateLathe", "src/zeo_shape3d_cyl.c:zCyl3DToPH", "src/zeo_shape3d_cone.c:zCone3DToPH"]}
{"id": "C42", "title": "Triangulating a loop of n vertices yields n-2 triangles with vertices from the loop", "statement": "zTriangulate returns n-2 triangles for every loop of n >= 3 vertices (0 otherwise), each corner being a loop vertex.", "quantifier": "all vertex loops", "why_tests_cant": "the claim ranges over a continuum of real-valued inputs; a unit test checks finitely many", "anchors": ["src/zeo_elem3d_list.c:zTriangulate"]}
{"id": "C43", "title": "Recursive terrain identification equals regularised least squares", "statement": "After any sequence of points fed to a terrain cell its plane parameters are the unique minimiser of sum (a x + b y + c - z)^2 + a^2+b^2+c^2, and its variance is the mean squared post-update residual.", "quantifier": "all point sequences", "why_tests_cant": "the claim ranges over all operation histories of unbounded length; a test runs a few", "anchors": ["src/zeo_map_terra.c:_zTerraCellUpdate"]}
{"id": "C44", "title": "Points outside the height range do not alter a terrain map", "statement": "zTerraUpdate with a point whose z is outside [zmin,zmax] leaves every cell unchanged.", "quantifier": "all maps and points", "why_tests_cant": "the claim ranges over a continuum of real-valued inputs; a unit test checks finitely many", "anchors": ["src/zeo_map_terra.c:zTerraUpdate,_zTerraGetBaseGrid"]}
{"id": "C45", "title": "Terrain height interpolation is a weighted mean and exact on grid points", "statement": "zTerraZ lies between the smallest and largest of the four surrounding plane estimates, equals the cell's estimate at a grid point, and never reads outside the grid.", "quantifier": "all maps and query places", "why_tests_cant": "the claim ranges over a continuum of real-valued inputs; a unit test checks finitely many", "anchors": ["src/zeo_map_terra.c:zTerraZ"]}
{"id": "C46", "title": "RGB and HSV round-trip", "statement": "For every RGB in [0,1]^3, zHSV2RGB(zRGB2HSV(c)) = c with hue in [0,360); zHSV2RGB accepts every hue in the documented range [0,360].", "quantifier": "all colours", "why_tests_cant": "the claim ranges over a continuum of real-valued inputs; a unit test checks finitely many", "anchors": ["src/zeo_render_color.c:zRGB2HSV,zHSV2RGB"]}
{"id": "C47", "title": "RGB components stay in [0,1]", "statement": "zRGBSet, zRGBMul, zRGBBlend (ratio in [0,1] of valid colours), zHSV2RGB, hex decoding and colour names always give components in [0,1].", "quantifier": "all inputs including malformed strings", "why_tests_cant": "the claim ranges over a continuum of real-valued inputs; a unit test checks finitely many", "anchors": ["src/zeo_render_color.c"]}
{"id": "C48", "title": "Axis and direction names round-trip and reversal is an involution", "statement": "zAxisFromStr(zAxisStr(a)) = a for the six axes and -1 for anything else; zDirFromStr(zDirStr(d)) = d; zDirRev is a fixed-point-free involution off none.", "quantifier": "all enum values and all strings", "why_tests_cant": "the string side is an infinite domain", "anchors": ["src/zeo_misc.c", "include/zeo/zeo_misc.h"]}
{"id": "C49", "title": "Mass properties of polyhedra follow the parallel-axis theorem", "statement": "zPH3DBaryInertia equals zPH3DInertia minus the parallel-axis term; zTri3DConeInertia is symmetric; barycenter of a closed mesh is translation-equivariant.", "quantifier": "all meshes and densities", "why_tests_cant": "the claim ranges over a continuum of real-valued inputs; a unit test checks finitely many", "anchors": ["src/zeo_ph3d.c:zPH3DInertia,zPH3DBaryInertia,zPH3DBarycenter"]}
{"id": "C50", "title": "Coordinate frames from parameters", "statement": "zFrame3DFromDH, zFrame3DFromPosZYX/ZYZ/AA build frames with orthonormal attitude, and zFrame3DFromDH is the product of its four elementary transforms.", "quantifier": "all parameter values", "why_tests_cant": "the claim ranges over a continuum of real-valued inputs; a unit test checks finitely many", "anchors": ["src/zeo_frame3d.c"]}
{"id": "C51", "title": "GJK reports witness points in the convex hulls", "statement": "Whenever zGJK terminates, the two reported points are convex combinations (up to the pruning tolerance) of points of the respective sets, a run that ends with a full simplex reports a point common to both hulls, the two points are a nearest pair of the two hulls, and the Boolean returned says whether the hulls meet.", "quantifier": "all pairs of finite point sets, every run", "why_tests_cant": "the claim ranges over all operation histories of unbounded length; a test runs a few", "anchors": ["src/zeo_col_gjk.c"]}
{"id": "C52", "title": "Intersections of edges, triangles, planes, boxes and spheres are right and fit their buffers", "statement": "zColChkEdgePlane3D and zColChkTriPlane3D decide whether edge or triangle meets the plane; zIntersectEdgePlane3D, zIntersectTriPlane3D, zIntersectEdgeTri3D, zIntersectTri3D, zIntersectPlaneAABox3D and zIntersectTriAABox3D return only points of both objects (up to the tolerance) and return none only if the objects are disjoint; zColChkSphereAABox3D and zColChkSphereBox3D decide whether the box comes nearer to the centre than the radius; no routine writes past the three points zIntersectTri3D and the two points zColChkTri3D reserve.", "quantifier": "all edges, planes, non-degenerate triangles, boxes and spheres", "why_tests_cant": "the claim ranges over a continuum of real-valued inputs; a unit test checks finitely many", "anchors": ["src/zeo_col.c:zColChkEdgePlane3D,zIntersectEdgePlane3D,zColChkTriPlane3D,zIntersectTriPlane3D,zColChkEdgeTri3D,zIntersectEdgeTri3D,zColChkTri3D,zIntersectTri3D", "src/zeo_col_box.c:zColChkPlaneAABox3D,zIntersectPlaneAABox3D,zColChkTriAABox3D,zIntersectTriAABox3D,zColChkSphereAABox3D,zColChkSphereBox3D"]}
{"id": "C53", "title": "Optical information and shapes survive a ZTK write/read cycle", "statement": "Writing an optical property set or a shape (box, sphere, ellipsoid, cylinder, elliptic cylinder, capsule, cone, polyhedron; with name, type, optical information and texture) in ZTK format and reading it back yields the same data up to decimal notation, whatever the order of keys and whatever foreign keys are in the section; a polyhedron that is read has exactly the vertices and faces in the file; out-of-range face indices, unknown types and duplicate names are rejected.", "quantifier": "all optical parameter sets, all shapes, all decimal notations, all sections", "why_tests_cant": "the claim ranges over a continuum of real-valued inputs; a unit test checks finitely many", "anchors": ["src/zeo_render_optic.c:zOpticalInfoToZTK,zOpticalInfoFromZTK,zOpticalInfoFPrintZTK", "src/zeo_ph3d.c:zPH3DFPrintZTK,zPH3DFromZTK", "src/zeo_shape3d.c:zShape3DFromZTK,zShape3DFPrintZTK", "src/zeo_shape3d_ecyl.c:_zECyl3DRefFromZTK"]}
{"id": "C54", "title": "A terrain map identifies each cell from the points near it, and derives elevation, normal and traversability", "statement": "After zTerraIdent on a new map with points within the height range, every cell's plane is the unique regularised least-squares fit of exactly the points in the mesh squares adjacent to its grid point; zTerraForm gives elevation and unit upward normal of that plane; zTerraCheckTravs marks exactly the cells within all thresholds; zTerraZRange is the attained range.", "quantifier": "all point sequences, map geometries and thresholds", "why_tests_cant": "the claim ranges over a continuum of real-valued inputs; a unit test checks finitely many", "anchors": ["src/zeo_map_terra.c:zTerraIdent,zTerraForm,zTerraCheckTravs,zTerraZRange"]}
{"id": "C55", "title": "Nearest vertex, bounding box, inside test and nearest point of a polyhedron", "statement": "zPH3DContigVert returns a nearest vertex and its distance; zPH3DAABB returns the smallest axis-aligned box around the polyhedron; zPH3DPointIsInside tells whether a point is in the solid, up to the margin; zPH3DClosest and zPH3DDistFromPoint return the nearest point of the solid and its distance, zero for every point of the solid.", "quantifier": "all polyhedra with proper faces, all points and margins", "why_tests_cant": "The nearest point and the inside test quantify over a continuum of points and over all meshes.", "anchors": ["src/zeo_ph3d.c:zPH3DContigVert,zPH3DClosest,zPH3DDistFromPoint,zPH3DPointIsInside,zPH3DAABB"]}
{"id": "C56", "title": "Closed-form mass properties are the integrals over the solid", "statement": "For cylinders, cones, capsules, spheres, oriented boxes, ellipsoids and elliptic cylinders, the volume, the barycenter and the inertia tensor about the barycenter returned by the library (from a density or from a total mass) equal the Lebesgue integrals of 1, of the position and of |r|^2 1 - r r^T over the solid; elliptic cylinders are created with orthonormal radial vectors whether or not a reference vector is given.", "quantifier": "all solids with positive radii and spans, orthonormal axes and base centers more than four tolerances apart; all densities and masses", "why_tests_cant": "A test compares a few numbers with another closed form; the integral over an arbitrarily placed solid is a limit over all points.", "anchors": ["src/zeo_shape3d_cyl.c:zCyl3DVolume,zCyl3DBarycenter,zCyl3DBaryInertia", "src/zeo_shape3d_cone.c:zCone3DVolume,zCone3DBarycenter,zCone3DBaryInertia", "src/zeo_shape3d_capsule.c:zCapsule3DVolume,zCapsule3DBaryInertia", "src/zeo_elem3d_sphere.c:zSphere3DVolume,zSphere3DBaryInertia", "src/zeo_elem3d_box.c:zBox3DVolume,zBox3DBaryInertia", "src/zeo_shape3d_ellips.c:zEllips3DVolume,zEllips3DBaryInertia", "src/zeo_shape3d_ecyl.c:zECyl3DDefAxis,zECyl3DVolume,zECyl3DBaryInertia"]}
{"id": "C57", "title": "Nearest points and inside tests of ellipses, ellipsoids and elliptic cylinders", "statement": "zEllips2DClosest, zEllips3DClosest and zECyl3DClosest succeed for every point and return the nearest point of the filled shape, and the distance functions return the distance to it (for the ellipsoid up to the tolerance shell around it). The polynomial handed to the root finder is the right one and the root picked is the right one. The inside tests accept every point of the shape for a positive margin and only points within the margin of it. An elliptic cylinder created by zECyl3DCreate answers inside tests correctly.", "quantifier": "For all shapes with positive radii and orthonormal axes, all points, all margins >= 0; root finder exact.", "why_tests_cant": "The nearest point is defined by a minimum over a continuum of points; tests sample a few of them.", "anchors": ["src/zeo_elem2d_disk.c:zEllips2DClosest,zEllips2DDistFromPoint,zEllips2DPointIsInside", "src/zeo_shape3d_ellips.c:zEllips3DClosest,zEllips3DDistFromPoint,zEllips3DPointIsInside", "src/zeo_shape3d_ecyl.c:zECyl3DClosest,zECyl3DDistFromPoint,zECyl3DPointIsInside,zECyl3DDefAxis"]}
{"id": "C58", "title": "Moving and mirroring a shape moves and mirrors its points", "statement": "For spheres, cylinders, capsules, cones, oriented boxes, ellipsoids and elliptic cylinders, the shape returned by Xform occupies exactly the images of the points of the original under the frame, XformInv the preimages, Mirror the reflections across the coordinate plane; XformInv undoes Xform, mirroring twice restores the shape, volumes do not change, and the axes of a moved or mirrored box, ellipsoid or elliptic cylinder form a right-handed orthonormal frame if the original ones do.", "quantifier": "all shapes, all frames with a rotation as attitude, all three mirror axes", "why_tests_cant": "Equality of infinite point sets for a continuum of frames.", "anchors": ["src/zeo_elem3d_sphere.c:zSphere3DXform,zSphere3DXformInv,zSphere3DMirror", "src/zeo_shape3d_cyl.c:zCyl3DXform,zCyl3DXformInv,zCyl3DMirror", "src/zeo_shape3d_cone.c:zCone3DXform,zCone3DXformInv,zCone3DMirror", "src/zeo_elem3d_box.c:zBox3DXform,zBox3DXformInv,zBox3DMirror", "src/zeo_shape3d_ellips.c:zEllips3DXform,zEllips3DXformInv,zEllips3DMirror", "src/zeo_shape3d_ecyl.c:zECyl3DXform,zECyl3DXformInv,zECyl3DMirror"]}
{"id": "C59", "title": "Eigensystem of symmetric 3x3 matrices and singular value decomposition", "statement": "zMat3DSymEig ends for every symmetric matrix and returns a rotation matrix in which the matrix is diagonal up to the tolerance, the diagonal being the returned eigenvalues; every eigenvalue is found. zMat3DSymEigMin returns a unit vector minimising the quadratic form. zMat3DSVD returns rotation-like u, v and non-negative singular values with m = u diag(sv) v^T, and the number of non-zero singular values.", "quantifier": "all symmetric matrices (eigensystem), all matrices (decomposition), all positive tolerances", "why_tests_cant": "Termination and accuracy of an iteration whose loop bound is ineffective (it tests i, not iter), for all of a continuum of matrices.", "anchors": ["src/zeo_mat3d.c:zMat3DSymEig,zMat3DSymEigMin,zMat3DSVD"]}
{"id": "C60", "title": "Barycenter, covariance, principal axes and mean plane of a point set", "statement": "On a non-empty set of points, Barycenter returns the mean, Cov the variance-covariance matrix about the given center, BaryCov both in a single pass; PCA returns a rotation matrix of axes along which the covariances vanish, with the variances as principal components; PCAFrame a right-handed frame at the barycenter; MeanNormal the unit direction of least spread; MeanPlane the plane of least mean squared distance among all planes. On the empty set all of them report failure.", "quantifier": "all non-empty point sets of every kind (array, list, address list), all centers, all tolerances in (0,1/2]", "why_tests_cant": "Optimality over the continuum of planes and directions, for point sets of every size.", "anchors": ["src/zeo_vec3d_pca.c:zVec3DDataBarycenter,zVec3DDataCov,zVec3DDataBaryCov,zVec3DDataPCA,zVec3DDataBaryPCA,zVec3DDataPCAFrame,zVec3DDataMeanNormal,zVec3DDataMeanPlane"]}
{"id": "C61", "title": "Normal vectors and registration of point clouds", "statement": "zVec3DDataNormalVec_Tree returns one unit vector for each point, in order, pointing away from the barycenter and normal to the best plane of the points within the radius. zVec3DDataIdentFrame reports too few or differing numbers of points, and for sets of at least three points related by a rigid displacement returns a rotation and a position that are that displacement up to the tolerance. zVec3DDataICP ends after at most 200 iterations; if it ends because the error is below the tolerance, the frame takes every sampled point to within the tolerance of a point of the destination; a mere translation is found exactly.", "quantifier": "all point sets of every kind and size, all rigid displacements and similarities, all radii, all sequences of random numbers", "why_tests_cant": "Accuracy of an iterative decomposition over a continuum of displacements and point sets of every size; random sampling.", "anchors": ["src/zeo_vec3d_profile.c:zVec3DDataNormalVec_Tree,zVec3DDataIdentFrame,zVec3DDataICP"]}
{"id": "C62", "title": "Shapes of any type and compounds of shapes answer for the solid and for the union of the solids", "statement": "The generic functions on a shape answer for the solid the shape describes, whatever its type: zShape3DClosest gives a nearest point and its distance, zShape3DPointIsInside accepts the points of the solid, zShape3DVolume/Barycenter/Inertia give the integrals over the solid (about the centroid and about the origin), zShape3DXform/XformInv/Mirror give the moved point set. The functions on several shapes (zMultiShape3DClosest, zShape3DListClosest, zMultiShape3DPointIsInside, ContigVert, BoundingBall) answer for the union, and zShape3DPutInOctree stores exactly the grid points inside the shape.", "quantifier": "all shapes of the eight types, all compounds of any number of shapes, all query points, frames, densities, octrees", "why_tests_cant": "Quantifies over compounds of any size and over a continuum of shapes and points; mass properties are integrals.", "anchors": ["src/zeo_shape3d.c:zShape3DClosest,zShape3DPointIsInside,zShape3DInertia,zShape3DXform,zShape3DMirror,zShape3DPutInOctree", "src/zeo_multishape3d.c:zMultiShape3DClosest,zMultiShape3DPointIsInside,zMultiShape3DContigVert,zMultiShape3DBoundingBall", "src/zeo_shape3d_list.c:zShape3DListClosest,zShape3DListContigVert"]}
{"id": "C63", "title": "Convex hulls of planar point sets", "statement": "zVec3DDataConvexHull2D returns, for a set of points on a plane that are not all on a line, the loop of the extreme points of the set, each once, clockwise about a normal of the plane, spanning the same hull; it fails exactly for points on a line. zVec3DDataConvexHull2DPH3D returns the hull as a closed two-sided polyhedron of zero volume that covers exactly the hull. zConvexHull2DClosest returns the nearest point of the hull and its distance, zero for points inside.", "quantifier": "all finite planar point sets of any size and order, with repeated and collinear points; all query points", "why_tests_cant": "Point sets of every size and in every degenerate position; the scan and the early stop depend on the order of all points.", "anchors": ["src/zeo_bv2d_convexhull.c:zVec3DDataConvexHull2D,zVec3DDataConvexHull2DPH3D,zConvexHull2DClosest"]}
{"id": "C64", "title": "Angles, polar coordinates and conversions between representations", "statement": "zVec2DCreatePolar and zVec3DCreatePolar give the point at the stated distance and angles. zVec2DAngle is the turn that brings the first vector onto the ray of the second; zVec3DAngle satisfies the cosine law, lies in [0,pi] and is signed by the reference normal; the rotation of zVec3DAAError brings the first vector onto the ray of the second, also for opposite vectors. zMat2DAngle, zMat2DError and the conversions between zCoord2D and zFrame2D are inverse to the constructions. zMat3DIsOrthonormal with zMat3DIsRightHand decide whether a matrix is a rotation. zSphere3DToEllips3D and zCyl3DToECyl3D give the same solid.", "quantifier": "all vectors, angles, planar poses, matrices, spheres and cylinders", "why_tests_cant": "Identities over a continuum, with branch cuts of the angle.", "anchors": ["src/zeo_vec2d.c:zVec2DCreatePolar,zVec2DAngle", "src/zeo_vec3d.c:zVec3DCreatePolar,zVec3DAngle,zVec3DAAError", "src/zeo_mat2d.c:zMat2DRot", "src/zeo_frame2d.c:zFrame2DFromCoord2D,zCoord2DFromFrame2D", "src/zeo_mat3d.c:zMat3DIsOrthonormal,zMat3DIsRightHand,zAAError", "src/zeo_shape3d_ellips.c:zSphere3DToEllips3D", "src/zeo_shape3d_ecyl.c:zCyl3DToECyl3D"]}
{"id": "C65", "title": "Minkowski portal refinement decides contact and reports depth and a common point", "statement": "zMPR returns false only for sets with a direction along which their hulls do not overlap by more than the tolerance, and true only for sets whose hulls have a common point; it ends for all point sets. zMPRDepth finds the contact zMPR finds, with a point of both hulls, and a depth that suffices to part the hulls along some direction.", "quantifier": "all pairs of finite point sets, every run", "why_tests_cant": "Quantifies over point sets of every size, the hulls are continua, and termination depends on a cycle of the search that random points rarely meet.", "anchors": ["src/zeo_col_mpr.c:zMPR,zMPRDepth,_zMPRFindPortal,_zMPRRefinePortal,_zMPRExpandPortal,_zMPRDepthPair,_zMPRCalcDepth"]}
{"id": "C66", "title": "Conversion between polyhedra and boundary representations", "statement": "zPH3D2BREP gives a boundary representation in which every pointer leads to a live cell, edge i of a face joins the two corners other than corner i, no vertex or edge is listed twice and none is unused; its faces are those of the polyhedron in order and orientation, up to the tolerance, exactly when distinct corner points differ by more than the tolerance, and a closed surface stays closed. zPH3D2BREPInBox does so for the faces that meet the box. zBREP2PH3D returns the same triangles with valid indices; converting there and back keeps the faces.", "quantifier": "all polyhedra of any number of vertices and faces, valid or not closed, all boxes, all tolerances", "why_tests_cant": "Invariants of linked structures of every size; sharing of vertices and edges depends on the order of all faces.", "anchors": ["src/zeo_brep.c:zPH3D2BREP,zPH3D2BREPInBox,zBREP2PH3D,zBREPVertListFind,zBREPEdgeListFind"]}
{"id": "C67", "title": "Truncation of boundary representations", "statement": "zBREPTrunc leaves a sound boundary representation whose faces cover exactly the part of the surface below the plane, up to the tolerance, with the orientation kept; a plane above everything changes nothing, a plane below everything leaves nothing, and a closed mesh is opened only at the plane. zBREPTruncPH3D and zPH3DTruncBREP do so for the planes of all the faces of a polyhedron.", "quantifier": "all sound boundary representations, all planes, all polyhedra, all tolerances", "why_tests_cant": "Twenty-seven sign patterns of the corners on meshes of every size, with vertices on the plane; pointers to edges shared by faces that are cut in different ways.", "anchors": ["src/zeo_brep_trunc.c:zBREPTrunc,zBREPTruncPH3D,_zBREPTruncFace,_zBREPTruncFaceA,_zBREPTruncFaceV,_zBREPTruncFaceE,_zBREPTruncEdgeShrink,_zBREPTruncGR", "src/zeo_brep_bool.c:zPH3DTruncBREP"]}
{"id": "C68", "title": "Merging boundary representations and intersection of polyhedra", "statement": "zBREPMerge gives a sound boundary representation with the faces of both, sharing the vertices and edges they have in common. zIntersectPH3DBREP of two convex polyhedra gives the boundary of their intersection, and zIntersectPH3DBREPFast the same.", "quantifier": "all sound boundary representations, all pairs of polyhedra", "why_tests_cant": "Pointers into freed cells show only when they are followed later; coincident and axis-aligned faces are measure-zero cases that users build on purpose.", "anchors": ["src/zeo_brep_bool.c:zBREPMerge,zIntersectPH3DBREP,zIntersectPH3DBREPFast", "src/zeo_col_box.c:zIntersectPH3DBox"]}
{"id": "C69", "title": "Convex hull of points in space", "statement": "zVec3DDataConvexHull returns NULL just for points on a line, the planar hull polygon for points in a plane, and otherwise a polyhedron whose vertices are points of the data (each once if the tolerance is positive or no point is repeated), with a closed, consistently oriented surface; its faces are proper triangles with outward unit normal vectors, every data point lies in or behind the plane of every face, the half-spaces of the faces enclose exactly the convex hull of the data, the faces cover the boundary of the hull, and every data point outside of the hull of the others is a vertex (and, for a positive tolerance, no other).", "quantifier": "all finite point sets of any size, order and position, repeated and coplanar points included; tolerance zero and every tolerance up to the resolution of the set", "why_tests_cant": "Quantifies over point sets of every size; the facet list, the conflict lists and the cycle of horizon edges are linked structures whose invariants tests do not see.", "anchors": ["src/zeo_bv3d_convexhull.c:zVec3DDataConvexHull,_zQHSimplexVert,_zQHSimplex,_zQHFacetAssign,_zQHVisibleSet,_zQHHorizon,_zQHInc,_zQHCreate,_zQH2PH3D"]}
{"id": "C70", "title": "Oriented bounding box of points in space", "statement": "zVec3DDataOBB returns NULL just for points on a line, and otherwise a box with orthonormal right-handed axes that encloses the data and whose six sides each meet a point of them. One side lies in a supporting plane with three points off a line, and across no such plane is the data narrower than the height of the box; with that axis given, no rectangle in any direction has a smaller area than the base. The volume need not be the smallest of all enclosing boxes.", "quantifier": "all finite point sets of any size and position, planar ones included, at tolerance zero", "why_tests_cant": "Quantifies over point sets of every size, and the minimum of the base is over a continuum of directions.", "anchors": ["src/zeo_bv3d_obb.c:zVec3DDataOBB,_zOBB3DMinDir,_zOBB3DRect,_zOBB3DMaxDir"]}
{"id": "C71", "title": "Delaunay triangulation in the plane", "statement": "zVec2DDataDelaunayTriangulate succeeds on different points and delivers counterclockwise triangles with corners in the data and without common inner points, whose circumcircles contain no point of the data inside, and every three points whose circumcircle has all the others outside form one of the triangles; the triangles fill the convex hull of the data and know their neighbours.", "quantifier": "all finite sets of different points, any size, order and position (cocircular and collinear points included); every tolerance that resolves the points", "why_tests_cant": "Quantifies over point sets of every size; termination of the chain of edge flips and the emptiness of all circles are global facts; neighbours are pointers whose consistency no output shows.", "anchors": ["src/zeo_voronoi2d.c:zVec2DDataDelaunayTriangulate,_zDelaunay2DCreateOuter,_zDelaunay2DUpdate,_zDelaunay2DLegalize,_zDelaunay2DLegalizeOne,_zDelaunay2DPurgeOuter,_zDelaunayTri2DBind,_zDelaunayTri2DListFind"]}
{"id": "C72", "title": "Voronoi diagram in the plane", "statement": "zVec2DDataVoronoiDiagram succeeds on different points and delivers one cell per point in the order of the data; the nodes of a cell form a closed convex polygon, in order around it, whose edges lie on the bisectors of the seed and another point and which is the set of all points of the plane with no datum nearer than the seed.", "quantifier": "all finite sets of different points, any size, order and position (cocircular and collinear points included); all points of the plane", "why_tests_cant": "A cell is a set of points of the plane determined by all the data; that the loop of nodes closes in one round after the pointer-chasing sort depends on the triangles around every vertex forming one cycle.", "anchors": ["src/zeo_voronoi2d.c:zVec2DDataVoronoiDiagram,_zVoronoi2DListInit,_zVoronoi2DListFind,_zVoronoi2DCellAddLoop,_zVoronoi2DListLoopClose,_zVoronoi2DListFromDelaunayTri2D,_zVoronoi2DListFromDelaunayTri2DList"]}
{"id": "C73", "title": "NURBS surfaces: evaluation, tangents, transformation, tessellation, closest point, text", "statement": "zNURBS3DVec gives, for weights above the tolerance, a point in the convex hull of the control points that are active at the parameters, and the corner control points at the ends of clamped knots. zNURBS3DVecTSpace gives the same point with tangent vectors in the direction of the motion along each parameter and a normal vector. zNURBS3DXform, XformInv and Mirror move every point of the surface; zNURBS3DCopy and Clone give the same surface; zNURBS3DAlloc gives sound clamped knots exactly for orders less than the sizes. zNURBS3DToPH gives the grid of points of the surface with two equally oriented triangles per cell. zNURBS3DClosest gives the nearest point of the surface, its distance and its parameters. A surface is read back from its printed text.", "quantifier": "all surfaces of all sizes and orders with sound knots, all parameters in the domain, all frames, all query points, all numbers of slices", "why_tests_cant": "Identities of piecewise rational functions of every degree over a continuum of parameters.", "anchors": ["src/zeo_nurbs3d.c:zNURBS3DAlloc,zNURBS3DCopy,zNURBS3DClone,zNURBS3DMirror,zNURBS3DXform,zNURBS3DXformInv,zNURBS3DVec,zNURBS3DVecTSpace,zNURBS3DClosest,zNURBS3DToPH,zNURBS3DFromZTK,zNURBS3DFPrintZTK"]}
{"id": "C74", "title": "NURBS surfaces that represent shapes", "statement": "The surface that zNURBS3DSphere, zNURBS3DEllips, zNURBS3DTorus, zNURBS3DCone, zNURBS3DECyl, zNURBS3DCyl and zNURBS3DBox make is the boundary of the shape: every point of the surface is on the boundary, and every point of the boundary is met.", "quantifier": "all spheres, ellipsoids, tori, cones, elliptic and circular cylinders and boxes", "why_tests_cant": "Equality of two sets of points of space; samples of the surface show neither that points are missing nor that the parts between the samples are exact.", "anchors": ["src/zeo_nurbs3d_shape.c:zNURBS3DBox,zNURBS3DEllips,zNURBS3DSphere,zNURBS3DECyl,zNURBS3DCyl,zNURBS3DCone,zNURBS3DTorus,_zNURBS3DEllipsInitKnot,_zNURBS3DEllipsInitCP"]}
{"id": "C75", "title": "Intersection and collision of convex polyhedra", "statement": "zIntersectPH3D returns, for convex polyhedra that overlap deeper than its threshold, a closed outward oriented convex polyhedron whose points are exactly the points of both; it returns NULL for polyhedra that do not overlap. The result does not depend on the base point. zColChkPH3D yields nearest points of the two polyhedra, or points that agree when they touch.", "quantifier": "all pairs of convex polyhedra of any number of faces with flat faces, all base points, tolerance zero and all small tolerances", "why_tests_cant": "Equality of sets of points of space, through two convex hulls in dual space; the outcome depends on a base point that the caller does not see.", "anchors": ["src/zeo_col_ph.c:zIntersectPH3D,zColChkPH3D,_zTri3DDualXform,_zTri3DDualXform_a,_zTri3DDualXform_b,_zIntersectPH3DPointIsInside"]}
{"id": "C76", "title": "Penetration depth", "statement": "When the convex hulls of two sets of points overlap, zGJKDepth returns true and two points of the hulls whose difference is a shortest translation of the second set that takes the hulls apart; the loops end. zTri3DLinScale yields the weights of a point of a triangle. zIntersectPH3D, which starts from these points, returns the intersection of overlapping polyhedra.", "quantifier": "all pairs of finite sets of points in space whose hulls overlap, all orders of the points", "why_tests_cant": "A minimum over all translations of a polytope that is only built in part; whether the expansion ends and whether the nearest face is final depend on all further support points.", "anchors": ["src/zeo_col_gjk.c:zGJKDepth,_zGJKPD,_zGJKPDInit,_zGJKPDAddPoint,_zGJKPDInitSimplex3D,_zGJKPH3DClosest,_zGJKSlotListInsert,_zGJKSlotListCheckDup", "src/zeo_elem3d.c:zTri3DLinScale"]}
{"id": "C77", "title": "Polyhedra in STL files", "statement": "Reading an STL file gives a polyhedron with the facets of the file in their order, whose corners are those of the file up to the tolerance, whose vertices are shared, and whose normals are computed from the corners. What zPH3DFWriteSTL_ASCII and zPH3DFWriteSTL_Bin write is read back face by face; a written binary file is recognised as binary. Incomplete facets and files are rejected; vertices within the tolerance are merged.", "quantifier": "all lists of facets, all polyhedra, all names, all contents of uninitialised memory", "why_tests_cant": "Whether the reader keeps a vertex depends on what the memory of the tree held before, which a test does not control; the round trip is for all meshes and all orders of facets.", "anchors": ["src/zeo_ph3d_stl.c:_zSTLVertReg,_zSTLFacetListReg,_zSTLToPH3D,zPH3DFReadSTL_ASCII,zPH3DFWriteSTL_ASCII,zSTLIsBin,zPH3DFReadSTL_Bin,zPH3DFWriteSTL_Bin,zPH3DReadFileSTL"]}
{"id": "C78", "title": "Polyhedra in PLY files", "statement": "zPH3DReadFilePLY gives, for text and for both binary byte orders, with any columns in any order and of any type, the vertices of the columns x, y and z and the faces of the lists, polygons being cut into triangles that cover them; what zPH3DWriteFilePLY_ASCII and zPH3DWriteFilePLY_Bin write is read back on machines of either byte order; files with unknown parts are refused with NULL and indices outside the vertices are rejected.", "quantifier": "all lists of columns, types, encodings, vertices and faces; both byte orders of the machine", "why_tests_cant": "The reader dispatches on the product of encodings, byte orders, column types and orders; the round trip is for all meshes.", "anchors": ["src/zeo_ph3d_ply.c:zPH3DReadFilePLY,zPH3DWriteFilePLY_ASCII,zPH3DWriteFilePLY_Bin,_zPLYFReadHeader,_zPLYFReadFormat,_zPLYFReadElement,_zPLYFReadProperty,_zPH3DFReadPLYVert,_zPH3DFReadPLYFace,_zPH3DFReadPLYRangeGrid,_zPH3DFReadPLYData"]}
{"id": "C79", "title": "Polyhedra in OBJ files", "statement": "zPH3DFReadOBJ gives the vertices and the faces of the file, whatever other lines the file has, with or without textures and normals in the references, whatever the memory held before; polygons are cut into triangles that cover them; relative references count from the last vertex; references outside the vertices are rejected.", "quantifier": "all files, all contents of uninitialised memory", "why_tests_cant": "Files of every length with lines in every order; references that no test file contains; the content of fresh memory.", "anchors": ["src/zeo_ph3d_obj.c:zPH3DFReadOBJ,zPH3DReadFileOBJ,_zOBJCountKey,_zOBJFReadVert,_zOBJFReadFaceIndex,_zOBJFReadFace,_zOBJFReadPH3D"]}
{"id": "C80", "title": "Point sets in PCD files", "statement": "zVec3DDataFReadPCD gives the finite points of the file, in order, moved to the frame of the viewpoint, for text and binary data with any fields in any order, of any type and size; zVec3DDataFWritePCD writes a file that is read back; ill-formed files are refused with false.", "quantifier": "all lists of fields, all rows, all viewpoints, all point sets in all representations", "why_tests_cant": "Fields in every order and type; the behaviour at the end of the file depends on the number of finite points.", "anchors": ["src/zeo_vec3d_pcd.c:zVec3DDataFReadPCD,zVec3DDataReadPCDFile,zVec3DDataFWritePCD,zVec3DDataWritePCDFile,_zPCDHeaderFRead,_zPCDDataASCIIFRead,_zPCDDataBINFRead,_zPCDViewpointFRead,_zPCDFieldAssignReadASCII,_zPCDFieldAssignReadBIN"]}
{"id": "C81", "title": "Prisms and pyramids", "statement": "zPH3DCreatePrism gives the solid swept by a planar loop along a shift out of its plane, zPH3DCreatePyramid the one between the loop and an apex: the vertices of the loop, then the shifted ones or the apex; a closed surface whose faces all look outwards, whatever the direction of the loop and of the shift; the volume is the area of the loop times the height, or a third of it. Loops with less than three vertices are refused.", "quantifier": "all loops, shifts, apexes and tolerances", "why_tests_cant": "The orientation of the sides is taken from the first triangle of the triangulation, which depends on the whole loop; closedness is a statement on all edges.", "anchors": ["src/zeo_ph3d.c:zPH3DCreatePrism,zPH3DCreatePyramid,_zPH3DSweepBottom,_zPH3DLoopNext"]}
{"id": "C82", "title": "Orthonormalization, attitude differences and power iteration", "statement": "zMat3DOrthonormalize stores an orthonormal matrix whose first axis keeps its direction and whose second axis stays in the half plane spanned with it, also in place, and refuses equal axes; zMat3DDif gives the angular velocity that carries one attitude to the other within dt; zMat3DEigPower and zMat3DEigPowerInv give the eigenvalues of a symmetric matrix of largest and smallest absolute value with their eigenvectors; zMat3DIsSymmetric tells symmetry.", "quantifier": "all matrices, axes, start vectors, numbers of iterations and tolerances", "why_tests_cant": "The result of an iteration from a random start is a statement on limits; the axis pairs, aliasing and degenerate columns are combinations no test list exhausts.", "anchors": ["src/zeo_mat3d.c:zMat3DOrthonormalize,zMat3DDif,zMat3DEigPower,zMat3DEigPowerInv,zMat3DIsSymmetric"]}
{"id": "C83", "title": "Terrain maps and nets of maps in ZTK files", "statement": "What zTerraFPrintZTK, zMapFPrintZTK and zMapNetFPrintZTK write is read back by zTerraFromZTK, zMapFromZTK and zMapNetFromZTK as the same map or the same maps in the same order: every grid in its place, every number up to decimal notation, bounds consistent with origin, resolution and size, whatever other sections the file has. Whatever is read has as many cells as its size says. A net that cannot be read completely is reported.", "quantifier": "all maps of all sizes, all files, all number formats, all tolerances", "why_tests_cant": "The grids are addressed by two indices read from the file; the round trip is for all sizes, and the order of the keys of a file is free.", "anchors": ["src/zeo_map_terra.c:zTerraFromZTK,zTerraFPrintZTK,_zTerraGridFromZTK,_zTerraSizeFromZTK,_zTerraResolFromZTK; src/zeo_map.c:zMapFromZTK,zMapFPrintZTK; src/zeo_mapnet.c:zMapNetFromZTK,zMapNetFPrintZTK"]}
{"id": "C84", "title": "Octrees of point sets and normals estimated with them", "statement": "zVec3DOctreeInitAuto covers the given region with a cube of the same center whose edge is the resolution times a power of two, no larger than necessary, so that the points end in cubes of exactly the resolution. zVec3DOctreeAddData and zVec3DDataToOctree put every point of the set into the octree, or return NULL at the first point outside and keep those before it. zVec3DDataNormalVec_Octree gives the same normals as zVec3DDataNormalVec_Tree. The normal of an octant is a unit vector normal to the points in it, on the side of the previous one. This is so in all octants after zVec3DOctreeUpdateNormal, and in those made by zVec3DOctreeChangeResolution and zVec3DOctreeUnifyOctant; the normals have no influence on where the points are. Whatever points are added, and however the resolution is changed or octants are unified, no octant or point is freed twice or read after it was freed, and zVec3DOctreeDestroy gives back exactly the memory the octree took; destroying it once more, as the destructor of the class does after destroy(), and initialising it anew are safe.", "quantifier": "all regions, resolutions and tolerances; all point sets; all radii; all octants", "why_tests_cant": "The tree is arbitrarily deep, the agreement of two search structures is over all point sets, and the direction of least spread is a minimum over a sphere.", "anchors": ["src/zeo_vec3d_octree.c:zVec3DOctreeInitAuto,zVec3DOctreeAddData,zVec3DDataToOctree,zVec3DOctreeDestroy,zVec3DOctreeUpdateNormal,_zVec3DOctantUpdateNormal,_zVec3DOctantEstimateNormal; src/zeo_vec3d_profile.c:zVec3DDataNormalVec_Octree"]}
{"id": "C85", "title": "Textures", "statement": "zTextureAlloc, zTextureSetCoord and zTextureSetFace address exactly the elements asked for and refuse others. zTextureClone makes a texture with the same contents. zTextureFromZTK gives, for every file it accepts, the coordinates and faces of the file, with the vertices of every face among the coordinates, and refuses invalid indices. What zTextureFPrintZTK writes is read back. Whatever is done with a texture, nothing is freed twice, and zTextureDestroy gives back all it took, unless a pointer in use is set anew by allocating again, by cloning into it or by a second name.", "quantifier": "all textures, all indices, all files, all number formats", "why_tests_cant": "A clone that is only partly filled looks right as long as nothing but sizes is compared; files are arbitrary lists of fields in any order.", "anchors": ["src/zeo_render_texture.c:zTextureAlloc,zTextureDestroy,zTextureSetCoord,zTextureSetFace,zTextureClone,zTextureFromZTK,zTextureFPrintZTK,_zTextureCoordFromZTK,_zTextureFaceFromZTK,_zTextureDepthFromZTK; include/zeo/zeo_render_texture.h:zTextureInit"]}
{"id": "C86", "title": "Placed and mirrored shapes in ZTK files", "statement": "zShape3DFromZTK: the keys pos, att, rot and frame, anywhere among the other fields, move the shape that is read by the frame they describe: a position, attitude or frame replaces, a rotation by an angle in degrees about an axis turns the attitude. A mirror field makes the mirror image of an earlier shape about the named axis, with the name given and the optical information and texture of that shape. Invalid axes are refused.", "quantifier": "all shapes, all sections, all orders of fields, all frames, all axes and angles", "why_tests_cant": "The order of the fields of a section is free, and every type of shape is placed by its own method; a test fixes one order and one type.", "anchors": ["src/zeo_shape3d.c:zShape3DFromZTK,zShape3DMirror,zShape3DDestroy,_zShape3DMirrorFromZTK,_zShape3DPosFromZTK,_zShape3DAttFromZTK,_zShape3DRotFromZTK,_zShape3DFrameFromZTK; src/zeo_mat3d.c:zMat3DFromZTK,zAAFromZTK; src/zeo_frame3d.c:zFrame3DFromZTK; src/zeo_misc.c:zAxisFromStr"]}
{"id": "C87", "title": "Compounds of shapes in ZTK files and their clones", "statement": "zMultiShape3DFPrintZTK, then zMultiShape3DFromZTK: a compound comes back with all of its optical information, textures and shapes, in order, and with the same references among them. Whatever the file, the names of the shapes read are distinct and what they refer to was read; a file without shapes, or with a section that cannot be read, is refused. zMultiShape3DClone: the clone describes the same solids and refers only to its own optical information and textures.", "quantifier": "all compounds, all files, all orders of sections", "why_tests_cant": "References among sections depend on the order of the file and on names; a test fixes one file. Pointers of a clone into the original are seen only when the original is gone.", "anchors": ["src/zeo_multishape3d.c:zMultiShape3DFromZTK,zMultiShape3DFPrintZTK,zMultiShape3DClone,zMultiShape3DInit,_zMultiShape3DOpticFromZTK,_zMultiShape3DTextureFromZTK,_zMultiShape3DShapeFromZTK; src/zeo_shape3d.c:zShape3DClone"]}
{"id": "C88", "title": "Outlines with arcs, prisms and pyramids in ZTK files", "statement": "zPH3DFromZTK on a section with loop, prism or pyramid: a loop of points and arcs is read as the outline it describes - every arc runs in the direction given, at the radius given, in equal steps, and ends at its end point; an arc without end goes back to the first point - and the prism or pyramid is the one over that outline. Sections with a prism and faces are refused; sections without any of the three keys are read as vertices and faces. The order of the keys does not matter and an outline that cannot be drawn is reported.", "quantifier": "all outlines, planes, radii and divisions; all shifts and apexes", "why_tests_cant": "The geometry of an arc depends on five reals and a direction; tests sample one loop. Silently truncated outlines look like a valid polyhedron.", "anchors": ["src/zeo_ph3d.c:zPH3DFromZTK,_zPH3DVertFromZTK,_zPH3DFaceFromZTK,_zPH3DLoopArcFromZTK,_zPH3DLoopFromZTK,_zPH3DCreatePrismFromZTK,_zPH3DCreatePyramidFromZTK; src/zeo_misc.c:zDirFromStr"]}
{"id": "C89", "title": "DAE files", "statement": "zPH3DReadFileDAE: a COLLADA file of meshes of triangles is read as what it says - the points of every geometry at the place its node gives, in the order of the geometries, and the triangles at their places with valid indices and normal vectors - whatever the order of the columns of the arrays, the other arrays and inputs, the order of the nodes, and whether triangles or polylist is used. Transformations of a node are multiplied in the order of the file; a geometry appears where it is shown and only there; what cannot be read is reported.", "quantifier": "all lists of geometries, arrays, inputs, triangles, nodes and transformations", "why_tests_cant": "The reader combines index offsets over arrays, inputs and geometries; tests sample one file of one exporter. Misplaced or missing triangles look like a valid polyhedron.", "anchors": ["src/zeo_ph3d_dae.c:zPH3DReadFileDAE,_zDAEMeshList2PH3D,_zDAEEval,_zDAEEvalXform,_zDAEMeshEval,_zDAEPrimitiveEvalFace,_zDAESrcEval"]}
{"id": "C90", "title": "Fitting a sphere", "statement": "zSphere3DFit: for points which lie on a sphere and not in one plane the result is that sphere: the centre is exact from the second iteration on, the radius is never too small and its error is at most halved by every further iteration, and stopping early at tiny corrections leaves an error of the order of the tolerance. Where the iteration comes to rest for arbitrary points, the misfit is stationary.", "quantifier": "all sets of points on a sphere, all numbers of iterations, all tolerances; all sets of points for stationarity", "why_tests_cant": "Convergence of a Gauss-Newton iteration for all point sets cannot be sampled; a wrong factor of the correction still converges on many samples.", "anchors": ["src/zeo_shape3d_sphere.c:zSphere3DFit"]}
{"id": "C91", "title": "Conversion of shapes to polyhedra", "statement": "zShape3DToPH and zMultiShape3DToPH: a shape of positive dimensions becomes a polyhedron with the announced numbers of vertices and faces, whose vertices lie on the corners, the surface, the rims, the hemispheres or the apex of the shape, whose faces refer to existing vertices only and lie within the shape; a shape without length is refused and stays as it is; polyhedra stay as they are; several shapes are converted one by one in place, all or none; what encloses the polyhedron encloses the shape.", "quantifier": "all shapes of the eight classes, numbers of divisions and lists of shapes", "why_tests_cant": "The vertices are computed from divisions, an axis and rotations of a radial vector chosen by the direction of the axis; tests convert a few shapes and look at them. A vertex off the surface, or a face that cuts outside, is not visible.", "anchors": ["src/zeo_shape3d.c:zShape3DToPH; src/zeo_multishape3d.c:zMultiShape3DToPH; src/zeo_shape3d_capsule.c:zCapsule3DToPH; src/zeo_shape3d_ellips.c:zEllips3DToPH; src/zeo_shape3d_ecyl.c:zECyl3DToPH"]}
{"id": "C92", "title": "Shapes from an octree", "statement": "zMultiShape3DFromOctree: the shapes are boxes which lie in the region of the octree and do not overlap; every stored point is in (within the tolerance of) one of them that is not larger than the resolution, and every box is near a stored point; they are numbered names and share the given optical information. An octree without points gives no shapes. Unifying octants first changes the boxes but not the space they fill.", "quantifier": "all regions, resolutions, sequences of insertions and changes of resolution", "why_tests_cant": "The boxes depend on the history of the octree; tests build one octree and look at it. Space filled without a point in it is not visible from any single box.", "anchors": ["src/zeo_multishape3d.c:zMultiShape3DFromOctree; src/zeo_shape3d_box.c:zShape3DBoxCreateFromAABox; src/zeo_vec3d_octree.c:zVec3DOctreeToAABox3DList,_zVec3DOctantUnify"]}
{"id": "C93", "title": "Shapes from files", "statement": "zShape3DReadFile and the key `import` of a shape in a ZTK file: the format follows from the suffix in upper or lower case; the polyhedron in the file is scaled by the number behind its name and then placed by pos, att, rot and frame; name and optical information given in the section are kept, and a shape without name takes the one in an STL file. No suffix, an unknown one, an unsupported format or an unreadable file give NULL. A ZTK file may be imported like any other.", "quantifier": "all files, scales, sequences of placements, arrays of shapes read before", "why_tests_cant": "Tests read one STL file. Nested files, files that import themselves, scales on other shapes, and the order of the keys are combinations nobody enumerates.", "anchors": ["src/zeo_shape3d.c:zShape3DReadFile,_zShape3DReadFileEXT,zShape3DReadFileSTL,zShape3DReadFilePLY,zShape3DReadFileOBJ,zShape3DReadFileDAE,_zShape3DAssignPH,_zShape3DImportFromZTK,zShape3DReadZTK,zShape3DFromZTK"]}
{"id": "C94", "title": "Comparison of vectors, matrices, frames and boxes", "statement": "zXMatch holds exactly for identical objects; zXEqual and zXIsTol hold exactly if every number agrees, or is zero, to within the tolerance. zXEqual is reflexive, symmetric, and along a chain of n objects every number moves by at most n tolerances; equal frames send a point to places whose coordinates differ by at most zTOL (1+|x|+|y|+|z|). zXIsIdent recognises transformations that move nothing. A box in the plane made from centre and sizes or expanded keeps its centre, and its corners go once around it. The default comparison functions of sorted lists of points are total orders.", "quantifier": "all vectors, matrices, frames, Euler parameters, boxes, chains, tolerances", "why_tests_cant": "Tests compare a few objects with themselves and with distant ones; they say nothing about objects near the tolerance, about chains of comparisons, or about two representations of the same rotation.", "anchors": ["include/zeo/zeo_frame3d.h:_zFrame3DEqual,_zFrame3DMatch,_zFrame3DIsIdent;include/zeo/zeo_mat3d.h:_zMat3DEqual;src/zeo_ep.c:zEPIsIdent;src/zeo_elem2d_box.c:zAABox2DEqual,zAABox2DExpand,zAABox2DCreateFromSize,zAABox2DArea,zAABox2DVert;src/zeo_vec3d_list.c:_zVec3DListQuickSortDefaultCmp"]}
{"id": "C95", "title": "Methods and operators of the C++ classes", "statement": "The C++ methods and operators have the effect of their names on the object and their arguments: for k other than zero v / k and v /= k agree and are undone by multiplication; transpose() returns the transpose and leaves the object; a.inv(b) makes b the inverse of a; mulT multiplies by the transpose; (f*g)*v = f*(g*v); zEP::create returns the normalised quadruple; nearestNeighbor returns a point of the octree nearest to within the tolerance.", "quantifier": "all vectors, matrices, frames, numbers, octrees", "why_tests_cant": "The tests are written in C and call none of the methods; the values are right for symmetric matrices, nonzero divisors and octrees with points.", "anchors": ["include/zeo/zeo_mat2d.h:transpose,inv,mulT;include/zeo/zeo_mat3d.h:transpose,inv,mulT;include/zeo/zeo_vec6d.h:div;include/zeo/zeo_vec3d.h:operator/;include/zeo/zeo_ep.h:create,fromMat3D;include/zeo/zeo_vec3d_octree.h:nearestNeighbor"]}
{"id": "C96", "title": "Life of a shape", "statement": "A zShape3D declared in a C++ program, whatever sequence of queryAssign, create, naming and destroy follows, may be left to its destructor exactly if it then has a type; no block is freed twice, no block of others is freed, and the blocks lost are those of names and bodies replaced while in use. Shapes read from a file are destroyed without loss if all of their types are known. A mirror image takes the place of the old body of its destination, which is given back.", "quantifier": "all sequences of calls, all heaps, all lists of shapes", "why_tests_cant": "Memory errors show in no result; the tests destroy only shapes that were completely created, once.", "anchors": ["src/zeo_shape3d.c:zShape3DInit,zShape3DQueryAssign,zShape3DDestroy,zShape3DMirror;include/zeo/zeo_shape3d.h:zShape3D;src/zeo_shape3d_box.c:zShape3DBoxCreate;src/zeo_multishape3d.c:zMultiShape3DDestroy,zMultiShape3DFromZTK"]}
{"id": "C97", "title": "NURBS surfaces as shapes", "statement": "A zShape3D of the type NURBS behaves as the surface: zShape3DNURBSAlloc reports success exactly if there is a surface, zShape3DClone gives the same surface and zShape3DMirror its mirror image, zShape3DXform and zShape3DXformInv give its image and undo each other, zShape3DDistFromPoint agrees with zShape3DClosest, points of the surface are inside for a margin, and the inertia reported as computed does not depend on uninitialised variables.", "quantifier": "all NURBS with sound knots, all frames, points, margins and masses", "why_tests_cant": "The tests have no NURBS shapes; a failure to mirror or to transform is silent, and the value of an uninitialised variable may be right by chance.", "anchors": ["src/zeo_shape3d_nurbs.c:zShape3DNURBSAlloc,_zShape3DNURBSClone,_zShape3DNURBSMirror,_zShape3DNURBSXform,_zShape3DNURBSClosest,_zShape3DNURBSPointIsInside;src/zeo_shape3d.c:zShape3DMirror,zShape3DXform,zShape3DInertia,zShape3DInertiaMass"]}
{"id": "C98", "title": "Life of maps and nets of maps", "statement": "zMapDestroy and zMapNetDestroy are defined and release exactly the memory acquired after zMapInit, zMapFromZTK or zMapNetFromZTK, whether reading succeeded or failed at any map; destroying a map twice is harmless; reading into a map in use releases what it had.", "quantifier": "all texts (name, type and size given or not, known or unknown, zero or not), all numbers of maps, all states of the heap", "why_tests_cant": "Lost and doubly released memory does not change the results that tests compare, and texts that fail are not tested.", "anchors": ["src/zeo_map.c:zMapInit,zMapDestroy,zMapFromZTK;src/zeo_mapnet.c:zMapNetAlloc,zMapNetDestroy,zMapNetFromZTK;src/zeo_map_terra.c:zTerraInit,zTerraAlloc,zTerraDestroy"]}
{"id": "C99", "title": "Copies of polyhedra in memory", "statement": "zPH3DClone, zPH3DMirror, zPH3DScale and zPH3DFlip give a polyhedron with the same vertices and faces, mirrored, scaled or turned over, that shares no memory with the source: writing to the vertices of one, or destroying one, leaves the other as it was, and destroying the copy gives back exactly the memory it took; the destination may be the source; zPH3DXform moves a polyhedron in place and into a clone, and never reads outside of the source.", "quantifier": "all states of the memory, all polyhedra whose faces have their vertices among their own, all axes, factors and frames", "why_tests_cant": "Faces that point into the vertices of the source give the right results until the source is changed or destroyed, which no test does.", "anchors": ["src/zeo_ph3d.c:zPH3DInit,zPH3DAlloc,zPH3DAllocVert,zPH3DAllocFace,zPH3DDestroy,zPH3DClone,zPH3DMirror,zPH3DScale,zPH3DFlip,zPH3DXform"]}

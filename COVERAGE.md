# Which functions are modelled

Generated from the citations in the model: a function is listed as modelled when a model definition cites lines of its body.
Printing, scanning and allocation wrappers are generally not modelled.

| file | modelled | not modelled |
|---|---|---|
| src/zeo_brep.c (8/9) | zBREPVertListFind, _zBREPVertListFindnReg, zBREPEdgeListFind, _zBREPEdgeListFindnReg, _zBREPFaceInsert, zPH3D2BREP, zPH3D2BREPInBox, zBREP2PH3D | zBREPDestroy |
| src/zeo_brep_bool.c (4/4) | zBREPMerge, zPH3DTruncBREP, zIntersectPH3DBREP, zIntersectPH3DBREPFast | — |
| src/zeo_brep_trunc.c (10/10) | _zBREPTruncBBCheck, _zBREPTruncIntersect, _zBREPTruncFaceA, _zBREPTruncFaceV, _zBREPTruncFaceE, _zBREPTruncEdgeShrink, _zBREPTruncGR, _zBREPTruncFace, zBREPTrunc, zBREPTruncPH3D | — |
| src/zeo_bv2d_aabb.c (2/2) | _zAABB2DTest, zVec2DDataAABB | — |
| src/zeo_bv2d_boundingball.c (4/4) | _zBoundingBall2DTest2, _zBoundingBall2DTest3, _zBoundingBall2D3, _zBoundingBall2DDirect | — |
| src/zeo_bv2d_convexhull.c (6/6) | _zConvexHull2DBase, _zConvexHull2D, _zConvexHull2DToPH3D, zVec3DDataConvexHull2D, zVec3DDataConvexHull2DPH3D, zConvexHull2DClosest | — |
| src/zeo_bv3d_aabb.c (4/4) | _zAABB3DTest, _zAABB3DInc, zVec3DDataAABB, zVec3DDataAABBXform | — |
| src/zeo_bv3d_boundingball.c (5/5) | _zBoundingBall3DTest2, _zBoundingBall3DTest3, _zBoundingBall3DTest4, _zBoundingBall3D4, _zBoundingBall3DDirect | — |
| src/zeo_bv3d_convexhull.c (20/30) | _zQHFacetCreate, _zQHFacetContig, _zQHFacet2Tri3D, _zQHFacetOn, _zQHSimplexVert, _zQHSimplex, _zQHFacetTestBeneathBeyond, _zQHFacetAssign, _zQHMerge, _zQHFacetResetFlag, _zQHVisibleSet, _zQHFacetContigID, _zQHFacetBind, _zQHHorizonNewFacet, _zQHHorizon, _zQHInc, _zQHDiscard, _zQHCreate, _zQH2PH3D, zVec3DDataConvexHull | _zQHPointCreate, _zQHFacetDestroy, _zQHFacetListDestroy, _zQHDestroy, _zQHFacetInfo, _zQHFacetListInfo, _zQHPointListPrint, _zQHFacetListPrint, _zQHPrint, _zQHPrint2 |
| src/zeo_bv3d_obb.c (4/4) | _zOBB3DMinDir, _zOBB3DRect, _zOBB3DMaxDir, zVec3DDataOBB | — |
| src/zeo_col.c (9/9) | zColChkEdgePlane3D, zIntersectEdgePlane3D, zIntersectPlane3D, zColChkTriPlane3D, zIntersectTriPlane3D, zColChkEdgeTri3D, zIntersectEdgeTri3D, zColChkTri3D, zIntersectTri3D | — |
| src/zeo_col_box.c (21/21) | _zIntersectPlaneAABox3DEdge, zColChkPlaneAABox3D, zIntersectPlaneAABox3D, _zColChkTriAABox3DEdgeAxOne, _zColChkTriAABox3DEdgeAx, _zColChkTriAABox3DEdge, _zColChkTriAABox3DPlane, zColChkTriAABox3D, _zIntersectTriAABox3DEdgeAxOne, _zIntersectTriAABox3DEdgeAx, _zIntersectTriAABox3DEdge, _zIntersectTriAABox3DPlane, zIntersectTriAABox3D, zColChkAABox3D, zIntersectAABox3D, zIntersectPH3DBox, _zColChkBox3DAlong, _zColChkBox3DPerp, zColChkBox3D, zColChkSphereAABox3D, zColChkSphereBox3D | — |
| src/zeo_col_gjk.c (20/26) | _zGJKSlotInit, _zGJKSimplexInit, _zGJKSimplexCheckDupSlot, _zGJKSimplexAddSlot, _zGJKSimplexClosest, _zGJKSupportMap, _zGJKPair, _zGJKPH3DClosest, _zGJKSlotListInsert, _zGJKPDAddPoint, _zGJKPDInit, _zGJKPDInitSimplex3D, _zGJKPD, _zGJKCheck, _zGJK, zGJK, zGJKDepth, _zGJKPointSupportMap, _zGJKPointClosest, zGJKPoint | _zGJKSlotPrint, _zGJKSlotVertFPrint, _zGJKSimplexYPrint, _zGJKSimplexWPrint, _zGJKSimplexYVertFPrint, _zGJKSimplexWVertFPrint |
| src/zeo_col_minkowski.c (1/1) | zVec3DDataMinkowskiSub | — |
| src/zeo_col_mpr.c (14/14) | _zMPRSupportMap, _zMPROrigin, _zMPRSimplexDir, _zMPRFindPortal, _zMPRPortalDir, _zMPRPortalIsReached, _zMPRExpandPortal, _zMPRRefinePortal, _zMPRDepthPair, _zMPRCalcSegDist, _zMPRCalcDepth, _zMPRDepth, zMPR, zMPRDepth | — |
| src/zeo_col_ph.c (6/6) | zColChkPH3D, _zTri3DDualXform, _zTri3DDualXform_a, _zTri3DDualXform_b, _zIntersectPH3DPointIsInside, zIntersectPH3D | — |
| src/zeo_coord2d.c (8/18) | zCoord2DAdd, zCoord2DSub, zCoord2DMul, zCoord2DDiv, zCoord2DCat, zCoord2DInterDiv, zCoord2DXform, zCoord2DCascade | zCoord2DCreate, zCoord2DCopy, zCoord2DEqual, zCoord2DIsTol, zCoord2DAddDRC, zCoord2DSubDRC, zCoord2DMulDRC, zCoord2DDivDRC, zCoord2DCatDRC, zCoord2DFPrint |
| src/zeo_elem2d.c (4/6) | zIntersectLine2D, _zTri2DClosestFromOrigin_TestEdge, zTri2DClosestFromOrigin, zTri2DClosest | zTri2DCreate, zTri2DFPrint |
| src/zeo_elem2d_box.c (11/15) | zAABox2DCreate, zAABox2DCreateFromSize, zAABox2DEqual, zAABox2DMerge, zAABox2DExpand, zAABox2DClosest, zAABox2DSqrDistFromPoint, zAABox2DPointIsInside, zAABox2DArea, zAABox2DVert, zAABox2DEnlarge | zAABox2DInit, zAABox2DCopy, zAABox2DFPrint, zAABox2DValueFPrint |
| src/zeo_elem2d_disk.c (9/10) | zDisk2DDistFromPoint, zDisk2DPointIsInside, zDisk2DFrom2, zDisk2DFrom3, zEllips2DCreate, _zEllips2DClosest, zEllips2DClosest, zEllips2DDistFromPoint, zEllips2DPointIsInside | zDisk2DCreate |
| src/zeo_elem3d.c (31/37) | zLine3DCommonPerpEnd, zLine3DCommonPerp, zDistLine3DLine3D, zPlane3DCreate, zPlane3DDistFromPoint, zPlane3DPointIsOn, zPlane3DProjPoint, zTri3DCreate, zTri3DCreateFlip, zTri3DFlip, _zTri3DOuterProd, zTri3DArea, zTri3DCalcNorm, zTri3DDistFromPointToPlane, zTri3DProjPoint, zTri3DPointIsOnPlane, _zTri3DProjIsInside, _zTri3DClosestFromOrigin_TestEdge, zTri3DClosestFromOrigin, zTri3DClosest, zTri3DSignedClosest, _zTri3DLinScaleDeg2, _zTri3DLinScaleDeg1, zTri3DLinScale, zTri3DConeVolume, zTri3DConeBarycenter, zTri3DConeInertia, zTri3DConeCircumcenter, _zTetra3DClosestFromOrigin_TestTri, zTetra3DClosestFromOrigin, zTetra3DClosest | zPlane3DFPrint, zTri3DInit, zTri3DCopy, zTri3DSignedDistFromPoint, _zTri3DLinScaleVal, zTri3DFPrint |
| src/zeo_elem3d_box.c (27/32) | zAABox3DInit, zAABox3DCreate, zAABox3DCreateFromSize, zAABox3DEqual, zAABox3DMerge, zAABox3DExpand, zAABox3DClosest, zAABox3DSqrDistFromPoint, zAABox3DPointIsInside, zAABox3DVolume, zAABox3DVert, zAABox3DEnlarge, zBox3DCreate, zBox3DInit, zBox3DCopy, zBox3DMirror, zBox3DXform, zBox3DXformInv, zBox3DClosest, zBox3DDistFromPoint, zBox3DPointIsInside, zBox3DVolume, zBox3DBaryInertiaMass, zBox3DBaryInertia, zBox3DVert, zAABox3DToBox3D, zBox3DToAABox3D | zAABox3DCopy, zAABox3DFPrint, zAABox3DValueFPrint, zAABox3DListAdd, zBox3DValueFPrint |
| src/zeo_elem3d_list.c (7/8) | zTri3DListAlign, zTri3DListCopyArray, _zLoop3DTriangulateNorm, _zLoop3DTriangulateCheck, _zLoop3DTriangulate, zLoop3DTriangulate, zTriangulate | zTri3DListAdd |
| src/zeo_elem3d_sphere.c (14/15) | zSphere3DInit, zSphere3DCopy, zSphere3DMirror, zSphere3DXform, zSphere3DXformInv, zSphere3DClosest, zSphere3DDistFromPoint, zSphere3DPointIsInside, zSphere3DFrom2, zSphere3DFrom3, zSphere3DFrom4, zSphere3DVolume, zSphere3DBaryInertiaMass, zSphere3DBaryInertia | zSphere3DCreate |
| src/zeo_ep.c (22/24) | zEPCreate, zEPCreateAA, zEPIsIdent, zEP2AA, zAA2EP, zMat3DFromEP, zMat3DToEP, zEPRotVec3D, zEPVel2AngVel, zAngVel2EPVel, zEPAdd, zEPSub, zEPRev, zEPMul, zEPCat, zEPDif, zEPInnerProd, zEPNorm, zEPNormalize, zEPCascade, zEPInterDiv, zMat3DInterDiv | zEPCopy, zEPFPrint |
| src/zeo_frame2d.c (8/15) | zFrame2DCreateAngle, zXform2D, zXform2DInv, zFrame2DInv, zFrame2DCascade, zFrame2DXform, zFrame2DFromCoord2D, zCoord2DFromFrame2D | zFrame2DCreate, zFrame2DCopy, zFrame2DEqual, zFrame2DIsIdent, zFrame2DFromZTK, zFrame2DFScan, zFrame2DFPrint |
| src/zeo_frame3d.c (25/39) | zXform3D, zXform3DInv, zFrame3DInv, zFrame3DCascade, zFrame3DXform, zXform6DLin, zXform6DAng, zFrame3DTwist, zFrame3DError, zFrame3DFromPosZYX, zFrame3DFromPosZYZ, zFrame3DFromPosAA, zFrame3DFromDH, zFrame3DTranslateView, zFrame3DRotateView, zFrame3DLookAtView, zFrame3DGazeAndRotateView, zArrayToFrame3DZYX, zVec6DToFrame3DZYX, zFrame3DToVec6DZYX, zVec6DToFrame3DZYZ, zFrame3DToVec6DZYZ, zVec6DToFrame3DAA, zFrame3DToVec6DAA, zFrame3DFromZTK | zFrame3DCreate, zFrame3DCopy, zFrame3DMatch, zFrame3DEqual, zFrame3DIsIdent, zFrame3DToArrayZYX, zArrayToFrame3DZYZ, zFrame3DToArrayZYZ, zArrayToFrame3DAA, zFrame3DToArrayAA, zFrame3DToZTK, zFrame3DDHFromZTK, zFrame3DFScan, zFrame3DFPrint |
| src/zeo_map.c (7/8) | zMapInit, zMapDestroy, _zMapNameFromZTK, _zMapTypeFromZTK, _zMapNameFPrintZTK, zMapFromZTK, zMapFPrintZTK | _zMapTypeFPrintZTK |
| src/zeo_map_terra.c (31/44) | _zTerraCellInit, _zTerraCellResidual, _zTerraCellUpdate, _zTerraCellForm, zTerraGrid, zTerraInit, zTerraLevel, zTerraAlloc, zTerraSetRegion, zTerraAllocRegion, zTerraAllocGrid, zTerraDestroy, _zTerraGetBaseGrid, zTerraUpdate, zTerraForm, zTerraIdent, _zTerraCheckGridTravsRes, _zTerraCheckGridTravs, zTerraCheckTravs, zTerraZRange, _zTerraZGrid, zTerraZ, _zTerraResolFromZTK, _zTerraSizeFromZTK, _zTerraGrdThrsdFromZTK, _zTerraGridFromZTK, _zTerraGrdThrsdFPrint, zTerraFromZTK, zTerraFPrintZTK, _zMapTerraAlloc, _zMapTerraDestroy | _zTerraOriginFromZTK, _zTerraZRangeFromZTK, _zTerraVarThrsdFromZTK, _zTerraResThrsdFromZTK, _zTerraOriginFPrint, _zTerraResolFPrint, _zTerraSizeFPrint, _zTerraZRangeFPrint, _zTerraVarThrsdFPrint, _zTerraResThrsdFPrint, zTerraDataFPrint, _zMapTerraParseZTK, _zMapTerraFPrintZTK |
| src/zeo_mapnet.c (6/8) | zMapNetAlloc, zMapNetDestroy, _zMapNetMapFromZTK, zMapNetFromZTK, zMapNetFPrintZTK, zMapNetReadZTK | zMapNetInit, zMapNetWriteZTK |
| src/zeo_mat2d.c (25/36) | zMat2DCreateAngle, zMat2DT, zMat2DTDRC, zMat2DAdd, zMat2DSub, zMat2DRev, zMat2DMul, zMat2DDiv, zMat2DSqrNorm, zMat2DDet, zMat2DAdj, zMat2DInv, zMulMat2DVec2D, zMulMat2DTVec2D, zMulMat2DVec2DDRC, zMulAdjMat2DVec2D, zMulInvMat2DVec2D, zMulMat2DMat2D, zMulMat2DTMat2D, zMulMat2DMat2DT, zMulInvMat2DMat2D, zMat2DAngle, zMat2DRotSC, zMat2DRot, zMat2DError | zMat2DCreate, zMat2DCopy, zMat2DMatch, zMat2DEqual, zMat2DIsIdent, zMat2DRow, zMat2DCat, zMat2DDyad, zMulMat2DTVec2DDRC, zMat2DFScan, zMat2DFPrint |
| src/zeo_mat3d.c (72/94) | zMat3DT, zMat3DTDRC, zMat3DSymmetrize, zMat3DIsSymmetric, zMat3DAdd, zMat3DSub, zMat3DRev, zMat3DMul, zMat3DDiv, zMat3DCat, zMulVec3DOuterProdMat3D, zMat3DSqrNorm, zMat3DIsOrthonormal, zMat3DIsRightHand, zMat3DOrthonormalize, zMat3DAdj, _zMat3DBalancingMinMaxIndex, _zMat3DRowBalancingScale, _zMat3DColBalancingScale, zMat3DDet, _zMat3DInv, zMat3DInv, zMulMat3DVec3D, zMulMat3DTVec3D, _zMulAdjMat3DVec3DRow, zMulAdjMat3DVec3D, _zMulInvMat3DVec3D, zMulInvMat3DVec3D, zVec3DCatRatio, zMulMat3DMat3D, zMulMat3DTMat3D, zMulMat3DMat3DT, zMulAdjMat3DMat3D, _zMulInvMat3DMat3D, zMulInvMat3DMat3D, zMulMat3DVec6D, zMulMat3DTVec6D, _zMat3DRotRPYSC, _zMat3DRotRPYSCDRC, zMat3DRotRollSC, zMat3DRotRoll, zMat3DRotRollSCDRC, zMat3DRotPitchSC, zMat3DRotPitch, zMat3DRotPitchSCDRC, zMat3DRotYawSC, zMat3DRotYaw, zMat3DRotYawSCDRC, zMat3DFromZYXSC, zMat3DFromZYX, zMat3DToZYX, zMat3DFromZYZSC, zMat3DFromZYZ, zMat3DToZYZ, zMat3DFromAA, zMat3DToAA, zRotMat3D, zRotMat3DInv, zMat3DRot, zMat3DRotCat, zAACascade, zMat3DError, zAAError, zMat3DDif, zMat3DEigPower, zMat3DEigPowerInv, _zMat3DSymEigRot, zMat3DSymEig, zMat3DSymEigMin, zMat3DSVD, zMat3DFromZTK, zAAFromZTK | zMat3DCreate, zMat3DCopy, zMat3DMatch, zMat3DEqual, zMat3DIsIdent, zMat3DIsTol, zMat3DRow, zMat3DDyad, zMat3DAddDyad, zMat3DSubDyad, zVec3DOuterProdToMat3D, zVec3DTripleProdToMat3D, zVec3DDoubleOuterProdToMat3D, zMat3DCatVec3DDoubleOuterProd, zMulMat3DVec3DDRC, zMulMat3DTVec3DDRC, zMat3DRotRollDRC, zMat3DRotPitchDRC, zMat3DRotYawDRC, zMat3DToZTK, zMat3DFScan, zMat3DFPrint |
| src/zeo_mat6d.c (14/21) | zMat6DCreate, zMat6DZero, zMat6DRow, zMat6DCol, zMat6DAdd, zMat6DSub, zMat6DMul, zMat6DDiv, zMat6DDivDRC, zMulMat6DVec6D, zMulMat6DTVec6D, zMulMat6DMat6D, zMulMat6DTMat6D, zMulMat6DMat6DT | zMat6DCopy, zMat6DT, zMat6DAddDRC, zMat6DSubDRC, zMat6DMulDRC, zMat6DDyad, zMat6DFPrint |
| src/zeo_misc.c (5/5) | zAxisStr, zAxisFromStr, zDirStr, zDirFromStr, zDirRev | — |
| src/zeo_multishape3d.c (17/20) | zMultiShape3DDestroy, zMultiShape3DClone, zMultiShape3DContigVert, zMultiShape3DClosest, zMultiShape3DPointIsInside, zMultiShape3DToPH, zMultiShape3DVertData, zMultiShape3DBoundingBall, zMultiShape3DFromOctree, _zMultiShape3DOpticFromZTK, _zMultiShape3DTextureFromZTK, _zMultiShape3DShapeFromZTK, _zMultiShape3DOpticFPrint, _zMultiShape3DTextureFPrint, _zMultiShape3DShapeFPrint, zMultiShape3DFromZTK, zMultiShape3DFPrintZTK | zMultiShape3DInit, zMultiShape3DReadZTK, zMultiShape3DWriteZTK |
| src/zeo_nurbs3d.c (23/24) | zNURBS3DAlloc, zNURBS3DDestroy, zNURBS3DCopy, zNURBS3DClone, zNURBS3DMirror, zNURBS3DXform, zNURBS3DXformInv, zNURBS3DVec, zNURBS3DVecTSpace, zNURBS3DClosest, zNURBS3DToPH, _zNURBS3DKnotFromZTK, _zNURBS3DUKnotFromZTK, _zNURBS3DVKnotFromZTK, _zNURBS3DSliceFromZTK, _zNURBS3DSizeFromZTK, _zNURBS3DCPFromZTK, _zNURBS3DUKnotFPrint, _zNURBS3DVKnotFPrint, _zNURBS3DSliceFPrint, _zNURBS3DSizeFPrint, zNURBS3DFromZTK, zNURBS3DFPrintZTK | zNURBS3DInit |
| src/zeo_nurbs3d_shape.c (9/9) | _zNURBS3DEllipsInitKnot, _zNURBS3DEllipsInitCP, zNURBS3DBox, zNURBS3DEllips, zNURBS3DSphere, zNURBS3DECyl, zNURBS3DCyl, zNURBS3DCone, zNURBS3DTorus | — |
| src/zeo_ph3d.c (38/38) | zPH3DInit, zPH3DAllocVert, zPH3DAllocFace, zPH3DAlloc, zPH3DDestroy, zPH3DClone, zPH3DMirror, zPH3DScaleDRC, zPH3DScale, zPH3DFlipDRC, zPH3DFlip, zPH3DXform, zPH3DXformInv, zPH3DContigVert, zPH3DClosest, zPH3DDistFromPoint, zPH3DPointIsInside, zPH3DVolume, zPH3DBarycenter, zPH3DInertia, zPH3DInertiaMass, zPH3DBaryInertia, zPH3DBaryInertiaMass, zPH3DAABB, _zPH3DLoopNext, _zPH3DSweepBottom, zPH3DCreatePrism, zPH3DCreatePyramid, zPH3DCreateTorus, zPH3DCreateLathe, _zPH3DVertFromZTK, _zPH3DFaceFromZTK, _zPH3DLoopArcFromZTK, _zPH3DLoopFromZTK, _zPH3DCreatePrismFromZTK, _zPH3DCreatePyramidFromZTK, zPH3DFromZTK, zPH3DFPrintZTK | — |
| src/zeo_ph3d_dae.c (25/26) | _zDAESrcInit, _zDAESrcFind, _zDAEPrimitiveInit, _zDAEMeshInit, _zDAEMeshListDestroy, _zDAEMeshListFind, _zDAESrcEvalFloatArray, _zDAESrcSetAccessor, _zDAESrcEvalAccessor, _zDAESrcEval, _zDAEEvalURI, _zDAESrcEvalVert, _zDAEPrimitiveEvalFace, _zDAEMeshEval, _zDAEMeshEvalGeometry, _zDAEEvalLibraryGeometries, _zDAEGetXform, _zDAEGetTrans, _zDAEGetRot, _zDAEGetScale, _zDAEEvalXform, _zDAEEvalLibraryVisualScenes, _zDAEEval, _zDAEMeshList2PH3D, zPH3DReadFileDAE | _zDAEMeshDestroy |
| src/zeo_ph3d_obj.c (7/7) | _zOBJCountKey, _zOBJFReadVert, _zOBJFReadFaceIndex, _zOBJFReadFace, _zOBJFReadPH3D, zPH3DFReadOBJ, zPH3DReadFileOBJ | — |
| src/zeo_ph3d_ply.c (20/27) | zPLY_fread_ASCII_double_double, _zPLYInit, _zPLYPrpInit, _zPLYPrpFind, _zPLYFReadFormat, _zPLYFReadElement, _zPLYFReadProperty, _zPLYFReadHeader, _zPH3DSetPLYVert, _zPH3DFReadPLYVert, _zPH3DFReadPLYFace, _zPH3DFReadPLYRangeGrid, _zPH3DFReadPLYElem, _zPH3DFReadPLYData, zPH3DReadFilePLY, _zPH3DFWritePLYHeader, _zPH3DFWritePLYDataASCII, _zPH3DFWritePLYDataBin, zPH3DWriteFilePLY_ASCII, zPH3DWriteFilePLY_Bin | zPLY_fread_ASCII_double_int, zPLY_fread_ASCII_int_int, zPLY_fread_ASCII_int_double, _zPLYElementInit, _zPLYElementFPrint, _zPLYFPrint, _zPLYIsValid |
| src/zeo_ph3d_stl.c (15/16) | _zSTLVertReg, _zSTLFacetListReg, _zSTLFacetListToTri3DArray, _zSTLToPH3D, _zPH3DFReadSTL_ASCIIloop, _zPH3DFReadSTL_ASCIIfacet, _zPH3DFReadSTL_ASCIIsolid, zPH3DFReadSTL_ASCII, zPH3DFWriteSTL_ASCII, _zPH3DFReadSTL_BinVec, _zPH3DFWriteSTL_BinVec, zSTLIsBin, zPH3DFReadSTL_Bin, zPH3DFWriteSTL_Bin, zPH3DReadFileSTL | zPH3DWriteFileSTL |
| src/zeo_render_color.c (14/17) | zRGBSet, zRGBToGS, zRGBMul, zRGBBlend, _zRGBRatio, _zRGBHex, zRGBDecodeStr, zRGBByName, zRGBByStr, zRGBFromZTK, zRGBToZTK, zRGBFPrint, zRGB2HSV, zHSV2RGB | zRGBCopy, zRGBFScan, zHSVFPrint |
| src/zeo_render_optic.c (9/22) | zOpticalInfoCreate, zOpticalInfoCopy, zOpticalInfoClone, zOpticalInfoMul, zOpticalInfoBlend, _zOpticalInfoAlphaFPrintZTK, zOpticalInfoFromZTK, zOpticalInfoToZTK, zOpticalInfoFPrintZTK | _zOpticalInfoNameFromZTK, _zOpticalInfoAmbientFromZTK, _zOpticalInfoDiffuseFromZTK, _zOpticalInfoSpecularFromZTK, _zOpticalInfoESRFromZTK, _zOpticalInfoShininessFromZTK, _zOpticalInfoAlphaFromZTK, _zOpticalInfoNameFPrintZTK, _zOpticalInfoAmbientFPrintZTK, _zOpticalInfoDiffuseFPrintZTK, _zOpticalInfoSpecularFPrintZTK, _zOpticalInfoESRFPrintZTK, _zOpticalInfoShininessFPrintZTK |
| src/zeo_render_texture.c (13/17) | zTextureAlloc, zTextureSetCoord, zTextureSetFace, zTextureDestroy, zTextureClone, _zTextureNameFromZTK, _zTextureFileFromZTK, _zTextureTypeFromZTK, _zTextureDepthFromZTK, _zTextureCoordFromZTK, _zTextureFaceFromZTK, zTextureFromZTK, zTextureFPrintZTK | _zTextureNameFPrintZTK, _zTextureFileFPrintZTK, _zTextureTypeFPrintZTK, _zTextureDepthFPrintZTK |
| src/zeo_shape3d.c (31/44) | zShape3DInit, zShape3DQueryAssign, zShape3DDestroy, zShape3DClone, zShape3DMirror, zShape3DXform, zShape3DXformInv, zShape3DClosest, zShape3DDistFromPoint, zShape3DPointIsInside, zShape3DVolume, zShape3DBarycenter, zShape3DBaryInertiaMass, zShape3DBaryInertia, zShape3DInertiaMass, zShape3DInertia, zShape3DToPH, _zShape3DAssignPH, zShape3DPutInOctree, zShape3DReadFileSTL, zShape3DReadFilePLY, zShape3DReadFileOBJ, zShape3DReadFileDAE, _zShape3DReadFileEXT, zShape3DDivFromZTK, _zShape3DMirrorFromZTK, _zShape3DImportFromZTK, zShape3DFromZTK, zShape3DFPrintZTK, zShape3DReadZTK, zShape3DReadFile | _zShape3DNameFromZTK, _zShape3DTypeFromZTK, _zShape3DOpticFromZTK, _zShape3DTextureFromZTK, _zShape3DPosFromZTK, _zShape3DAttFromZTK, _zShape3DRotFromZTK, _zShape3DFrameFromZTK, _zShape3DNameFPrint, _zShape3DTypeFPrint, _zShape3DOpticFPrint, _zShape3DTextureFPrint, zShape3DWriteZTK |
| src/zeo_shape3d_box.c (9/37) | zBox3DToPH, _zBox3DAxisFromZTK, zBox3DFPrintZTK, _zShape3DBoxDestroy, _zShape3DBoxParseZTK, _zShape3DBoxFPrintZTK, zShape3DBoxCreate, zShape3DBoxCreateAlign, zShape3DBoxCreateFromAABox | _zBox3DCenterFromZTK, _zBox3DAxisXFromZTK, _zBox3DAxisYFromZTK, _zBox3DAxisZFromZTK, _zBox3DDepthFromZTK, _zBox3DWidthFromZTK, _zBox3DHeightFromZTK, _zBox3DCenterFPrintZTK, _zBox3DAxisXFPrintZTK, _zBox3DAxisYFPrintZTK, _zBox3DAxisZFPrintZTK, _zBox3DDepthFPrintZTK, _zBox3DWidthFPrintZTK, _zBox3DHeightFPrintZTK, _zShape3DBoxInit, _zShape3DBoxAlloc, _zShape3DBoxClone, _zShape3DBoxMirror, _zShape3DBoxXform, _zShape3DBoxXformInv, _zShape3DBoxClosest, _zShape3DBoxDistFromPoint, _zShape3DBoxPointIsInside, _zShape3DBoxVolume, _zShape3DBoxBarycenter, _zShape3DBoxBaryInertiaMass, _zShape3DBoxBaryInertia, _zShape3DBoxToPH |
| src/zeo_shape3d_capsule.c (9/34) | _zCapsule3DClosestPrep, zCapsule3DClosest, zCapsule3DDistFromPoint, zCapsule3DPointIsInside, zCapsule3DHeight, zCapsule3DVolume, zCapsule3DBaryInertiaMass, zCapsule3DBaryInertia, zCapsule3DToPH | _zCapsule3DCenterFromZTK, _zCapsule3DRadiusFromZTK, _zCapsule3DDivFromZTK, _zCapsule3DCenterFPrintZTK, _zCapsule3DRadiusFPrintZTK, _zCapsule3DDivFPrintZTK, zCapsule3DFPrintZTK, _zShape3DCapsuleInit, _zShape3DCapsuleAlloc, _zShape3DCapsuleClone, _zShape3DCapsuleMirror, _zShape3DCapsuleDestroy, _zShape3DCapsuleXform, _zShape3DCapsuleXformInv, _zShape3DCapsuleClosest, _zShape3DCapsuleDistFromPoint, _zShape3DCapsulePointIsInside, _zShape3DCapsuleVolume, _zShape3DCapsuleBarycenter, _zShape3DCapsuleBaryInertiaMass, _zShape3DCapsuleBaryInertia, _zShape3DCapsuleToPH, _zShape3DCapsuleParseZTK, _zShape3DCapsuleFPrintZTK, zShape3DCapsuleCreate |
| src/zeo_shape3d_cone.c (16/42) | zCone3DInit, zCone3DCopy, zCone3DMirror, zCone3DXform, zCone3DXformInv, zCone3DClosest, zCone3DDistFromPoint, zCone3DPointIsInside, zCone3DHeight, zCone3DVolume, zCone3DBarycenter, zCone3DBaryInertiaMass, zCone3DBaryInertia, zCone3DToPH, zCone3DFPrintZTK, _zShape3DConeParseZTK | zCone3DCreate, _zCone3DCenterFromZTK, _zCone3DVertFromZTK, _zCone3DRadiusFromZTK, _zCone3DDivFromZTK, _zCone3DCenterFPrintZTK, _zCone3DVertFPrintZTK, _zCone3DRadiusFPrintZTK, _zCone3DDivFPrintZTK, _zShape3DConeInit, _zShape3DConeAlloc, _zShape3DConeClone, _zShape3DConeMirror, _zShape3DConeDestroy, _zShape3DConeXform, _zShape3DConeXformInv, _zShape3DConeClosest, _zShape3DConeDistFromPoint, _zShape3DConePointIsInside, _zShape3DConeVolume, _zShape3DConeBarycenter, _zShape3DConeBaryInertiaMass, _zShape3DConeBaryInertia, _zShape3DConeToPH, _zShape3DConeFPrintZTK, zShape3DConeCreate |
| src/zeo_shape3d_cyl.c (19/41) | zCyl3DCreate, zCyl3DInit, zCyl3DCopy, zCyl3DMirror, zCyl3DXform, zCyl3DXformInv, _zCyl3DClosestPrep, zCyl3DClosest, zCyl3DDistFromPoint, zCyl3DPointIsInside, zCyl3DHeight, zCyl3DVolume, zCyl3DBarycenter, zCyl3DBaryInertiaMass, zCyl3DBaryInertia, zCyl3DToPH, zCyl3DFPrintZTK, _zShape3DCylMirror, _zShape3DCylParseZTK | _zCyl3DCenterFromZTK, _zCyl3DRadiusFromZTK, _zCyl3DDivFromZTK, _zCyl3DCenterFPrintZTK, _zCyl3DRadiusFPrintZTK, _zCyl3DDivFPrintZTK, _zShape3DCylInit, _zShape3DCylAlloc, _zShape3DCylClone, _zShape3DCylDestroy, _zShape3DCylXform, _zShape3DCylXformInv, _zShape3DCylClosest, _zShape3DCylDistFromPoint, _zShape3DCylPointIsInside, _zShape3DCylVolume, _zShape3DCylBarycenter, _zShape3DCylBaryInertiaMass, _zShape3DCylBaryInertia, _zShape3DCylToPH, _zShape3DCylFPrintZTK, zShape3DCylCreate |
| src/zeo_shape3d_ecyl.c (19/44) | zECyl3DCreate, zECyl3DInit, zECyl3DCopy, zECyl3DMirror, zECyl3DDefAxis, zECyl3DXform, zECyl3DXformInv, zECyl3DClosest, zECyl3DDistFromPoint, zECyl3DPointIsInside, zECyl3DHeight, zECyl3DVolume, zECyl3DBarycenter, zECyl3DBaryInertiaMass, zECyl3DBaryInertia, zCyl3DToECyl3D, zECyl3DToPH, zECyl3DFPrintZTK, _zShape3DECylParseZTK | _zECyl3DCenterFromZTK, _zECyl3DRadiusFromZTK, _zECyl3DRefFromZTK, _zECyl3DDivFromZTK, _zECyl3DCenterFPrintZTK, _zECyl3DRadiusFPrintZTK, _zECyl3DRefFPrintZTK, _zECyl3DDivFPrintZTK, _zShape3DECylInit, _zShape3DECylAlloc, _zShape3DECylClone, _zShape3DECylMirror, _zShape3DECylDestroy, _zShape3DECylXform, _zShape3DECylXformInv, _zShape3DECylClosest, _zShape3DECylDistFromPoint, _zShape3DECylPointIsInside, _zShape3DECylVolume, _zShape3DECylBarycenter, _zShape3DECylBaryInertiaMass, _zShape3DECylBaryInertia, _zShape3DECylToPH, _zShape3DECylFPrintZTK, zShape3DECylCreate |
| src/zeo_shape3d_ellips.c (18/52) | zEllips3DCreate, zEllips3DInit, zEllips3DCopy, zEllips3DMirror, zEllips3DXform, zEllips3DXformInv, _zEllips3DClosest, zEllips3DClosest, zEllips3DDistFromPoint, zEllips3DPointIsInside, zEllips3DVolume, zEllips3DBaryInertiaMass, zEllips3DBaryInertia, zSphere3DToEllips3D, zEllips3DToPH, _zEllips3DAxisFromZTK, zEllips3DFPrintZTK, _zShape3DEllipsParseZTK | _zEllips3DCenterFromZTK, _zEllips3DAxisXFromZTK, _zEllips3DAxisYFromZTK, _zEllips3DAxisZFromZTK, _zEllips3DRadiusXFromZTK, _zEllips3DRadiusYFromZTK, _zEllips3DRadiusZFromZTK, _zEllips3DDivFromZTK, _zEllips3DCenterFPrintZTK, _zEllips3DAxisXFPrintZTK, _zEllips3DAxisYFPrintZTK, _zEllips3DAxisZFPrintZTK, _zEllips3DRadiusXFPrintZTK, _zEllips3DRadiusYFPrintZTK, _zEllips3DRadiusZFPrintZTK, _zEllips3DDivFPrintZTK, _zShape3DEllipsInit, _zShape3DEllipsAlloc, _zShape3DEllipsClone, _zShape3DEllipsMirror, _zShape3DEllipsDestroy, _zShape3DEllipsXform, _zShape3DEllipsXformInv, _zShape3DEllipsClosest, _zShape3DEllipsDistFromPoint, _zShape3DEllipsPointIsInside, _zShape3DEllipsVolume, _zShape3DEllipsBarycenter, _zShape3DEllipsBaryInertiaMass, _zShape3DEllipsBaryInertia, _zShape3DEllipsToPH, _zShape3DEllipsFPrintZTK, zShape3DEllipsCreate, zShape3DEllipsCreateAlign |
| src/zeo_shape3d_list.c (4/6) | zShape3DListPush, zShape3DListPop, zShape3DListContigVert, zShape3DListClosest | zShape3DListCellFPrintZTK, zShape3DListFPrintZTK |
| src/zeo_shape3d_nurbs.c (13/18) | _zShape3DNURBSAlloc, _zShape3DNURBSClone, _zShape3DNURBSMirror, _zShape3DNURBSXform, _zShape3DNURBSXformInv, _zShape3DNURBSClosest, _zShape3DNURBSDistFromPoint, _zShape3DNURBSPointIsInside, _zShape3DNURBSVolume, _zShape3DNURBSBarycenter, _zShape3DNURBSBaryInertiaMass, _zShape3DNURBSBaryInertia, zShape3DNURBSAlloc | _zShape3DNURBSInit, _zShape3DNURBSDestroy, _zShape3DNURBSToPH, _zShape3DNURBSParseZTK, _zShape3DNURBSFPrintZTK |
| src/zeo_shape3d_ph.c (4/17) | _zShape3DPHAlloc, _zShape3DPHClone, _zShape3DPHMirror, _zShape3DPHDestroy | _zShape3DPHInit, _zShape3DPHXform, _zShape3DPHXformInv, _zShape3DPHClosest, _zShape3DPHDistFromPoint, _zShape3DPHPointIsInside, _zShape3DPHVolume, _zShape3DPHBarycenter, _zShape3DPHBaryInertiaMass, _zShape3DPHBaryInertia, _zShape3DPHToPH, _zShape3DPHParseZTK, _zShape3DPHFPrintZTK |
| src/zeo_shape3d_sphere.c (6/27) | zSphere3DToPH, zSphere3DFit, zSphere3DFPrintZTK, _zShape3DSphereToPH, _zShape3DSphereParseZTK, zShape3DSphereCreate | _zSphere3DCenterFromZTK, _zSphere3DRadiusFromZTK, _zSphere3DDivFromZTK, _zSphere3DCenterFPrintZTK, _zSphere3DRadiusFPrintZTK, _zSphere3DDivFPrintZTK, _zShape3DSphereInit, _zShape3DSphereAlloc, _zShape3DSphereClone, _zShape3DSphereMirror, _zShape3DSphereDestroy, _zShape3DSphereXform, _zShape3DSphereXformInv, _zShape3DSphereClosest, _zShape3DSphereDistFromPoint, _zShape3DSpherePointIsInside, _zShape3DSphereVolume, _zShape3DSphereBarycenter, _zShape3DSphereBaryInertiaMass, _zShape3DSphereBaryInertia, _zShape3DSphereFPrintZTK |
| src/zeo_vec2d.c (26/41) | zVec2DCreatePolar, zVec2DEqual, zVec2DIsTol, zVec2DAdd, zVec2DSub, zVec2DRev, zVec2DMul, zVec2DDiv, zVec2DAmp, zVec2DDem, zVec2DCat, zVec2DDivDRC, zVec2DInnerProd, zVec2DOuterProd, zVec2DSqrNorm, zVec2DSqrDist, zVec2DNormalize, zVec2DInterDiv, zVec2DMid, zVec2DAngle, zVec2DProj, zVec2DRot, zVec2DRot90CW, zVec2DRot90CCW, zVec2DFromZTK, zVec2DFPrint | zVec2DCreate, zVec2DCopy, zVec2DMatch, zVec2DIsNan, zVec2DAddDRC, zVec2DSubDRC, zVec2DRevDRC, zVec2DMulDRC, zVec2DAmpDRC, zVec2DDemDRC, zVec2DCatDRC, zVec2DNormalizeNC, zVec2DFScan, zVec2DValueFPrint, zVec2DValueNLFPrint |
| src/zeo_vec2d_list.c (1/1) | _zVec2DListQuickSortDefaultCmp | — |
| src/zeo_vec3d.c (48/58) | zVec3DCreatePolar, zVec3DMatch, zVec3DEqual, zVec3DIsTol, zVec3DAdd, zVec3DSub, zVec3DRev, zVec3DMul, zVec3DDiv, zVec3DAmp, zVec3DDem, zVec3DCat, zVec3DAddDRC, zVec3DMulDRC, zVec3DDivDRC, zVec3DInnerProd, zVec3DOuterProd, zVec3DOuterProdNorm, zVec3DGrassmannProd, zVec3DTripleProd, zVec3DSqrNorm, zVec3DWSqrNorm, zVec3DSqrDist, zVec3DNormalizeNC, zVec3DNormalize, zVec3DInterDiv, zVec3DMid, zVec3DAngle, zVec3DAAError, zVec3DProj, zVec3DOrthonormal, zVec3DOrthogonalize, zVec3DOrthoSpace, zVec3DOrthonormalSpace, zVec3DRot, zVec3DDif, zZYXVelToAngVel, zZYXVelToAngVelSC, zAngVelToZYXVel, zAngVelToZYXVelSC, zZYZVelToAngVel, zZYZVelToAngVelSC, zAngVelToZYZVel, zAngVelToZYZVelSC, zVec3DFromZTK, zVec3DToZTK, zVec3DValueFPrint, zVec3DFPrint | zVec3DCreate, zVec3DCopy, zVec3DIsNan, zVec3DSubDRC, zVec3DRevDRC, zVec3DAmpDRC, zVec3DDemDRC, zVec3DCatDRC, zVec3DFScan, zVec3DValueNLFPrint |
| src/zeo_vec3d_list.c (1/1) | _zVec3DListQuickSortDefaultCmp | — |
| src/zeo_vec3d_octree.c (27/29) | _zVec3DOctantSetRegion, _zVec3DOctantInit, _zVec3DOctantDestroy, _zVec3DOctantAllocSuboctant, _zVec3DOctantEstimateNormal, _zVec3DOctantAddPoint, _zVec3DOctantUpdateNormal, _zVec3DOctantDivide, _zVec3DOctantMergeSuboctant, _zVec3DOctantMerge, _zVec3DOctantUnify, _zVec3DOctantFindContainer, _zVec3DOctantToAABox3DList, zVec3DOctreeInit, zVec3DOctreeInitAuto, zVec3DOctreeDestroy, zVec3DOctreeAddPoint, zVec3DOctreeAddData, zVec3DOctreeUpdateNormal, zVec3DDataToOctree, zVec3DOctreeChangeResolution, zVec3DOctreeUnifyOctant, _zVec3DOctantLeafNN, _zVec3DOctantNN, zVec3DOctreeNN, _zVec3DOctantVicinity, zVec3DOctreeVicinity | zVec3DOctreeFindContainer, zVec3DOctreeToAABox3DList |
| src/zeo_vec3d_pca.c (8/8) | zVec3DDataBarycenter, zVec3DDataCov, zVec3DDataBaryCov, zVec3DDataPCA, zVec3DDataBaryPCA, zVec3DDataPCAFrame, zVec3DDataMeanNormal, zVec3DDataMeanPlane | — |
| src/zeo_vec3d_pcd.c (24/29) | _zPCDFieldAssignReadASCII, _zPCDFieldAssignReadBIN, _zPCDInit, _zPCDVersionFRead, _zPCDFieldsFRead, _zPCDCheckFieldNum, _zPCDSizeFRead, _zPCDValueTypeFRead, _zPCDCountFRead, _zPCDWidthFRead, _zPCDHeightFRead, _zPCDViewpointFRead, _zPCDPointsFRead, _zPCDDataTypeFRead, _zPCDHeaderFRead, _zPCDDataASCIIFRead, _zPCDDataBINFRead, _zPCDDataBINCOMFRead, zVec3DDataFReadPCD, zVec3DDataReadPCDFile, _zPCDHeaderFWrite, _zPCDDataASCIIFWrite, _zPCDDataBinFWrite, zVec3DDataFWritePCD | _zPCDFieldIsCoord, _zPCDFieldAssignReadBINCOM, _zPCDFieldInit, _zPCDFieldAttrFind, zVec3DDataWritePCDFile |
| src/zeo_vec3d_profile.c (6/6) | _zVec3DDataNormalVecFromVicinity, zVec3DDataNormalVec_Tree, zVec3DDataNormalVec_Octree, zVec3DDataIdentFrame, _zVec3DDataICPInit, zVec3DDataICP | — |
| src/zeo_vec3d_tree.c (24/27) | zVec3DTreeDataInit, _zVec3DTreeCreateLeaf, _zVec3DTreeChooseBranch, _zVec3DTreeAddPoint, zVec3DTreeAddPoint, zVec3DTreePart, _zVec3DTreeNNTest, _zVec3DTreeNNOpp, _zVec3DTreeNN, zVec3DTreeNN, _zVec3DTreeVicinityTest, _zVec3DTreeVicinityOpp, _zVec3DTreeVicinity, zVec3DTreeVicinity, zVec3DArrayToTree, _zVec3DTreeToArray, zVec3DTreeToArray, _zVec3DTreeNodeToList, zVec3DTreeToList, zVec3DListToTree, zVec3DTreeAddData, zVec3DDataToTree, _zVec3DTreeToData, zVec3DTreeToData | _zVec3DTreeFPrint, zVec3DTreeFPrint, zVec3DTreeValueFPrint |
| src/zeo_vec6d.c (10/23) | zVec6DAdd, zVec6DSub, zVec6DRev, zVec6DMul, zVec6DDiv, zVec6DCat, zVec6DInnerProd, zVec6DLinShift, zVec6DAngShift, zVec6DDif | zVec6DCreate, zVec6DFromVec3D, zVec6DCopy, zVec6DMatch, zVec6DEqual, zVec6DIsTol, zVec6DLinShiftDRC, zVec6DAngShiftDRC, zVec6DFromZTK, zVec6DFScan, zVec6DValueFPrint, zVec6DValueNLFPrint, zVec6DFPrint |
| src/zeo_voronoi2d.c (21/24) | _zDelaunayTri2DBind, _zDelaunayTri2DFindAdj, _zDelaunayTri2DListFind, _zDelaunayTri2DListAdd, zDelaunayTri2DListFPrint, _zDelaunayPair2DStackPush, _zDelaunay2DLegalizeOne, _zDelaunay2DLegalize, _zDelaunay2DCreateOuter, _zDelaunay2DUpdate, _zDelaunay2DPurgeOuter, zVec2DDataDelaunayTriangulate, _zVoronoi2DListInit, zVoronoi2DListDestroy, _zVoronoi2DListFind, _zVoronoi2DCellAddLoop, _zVoronoi2DListLoopClose, _zVoronoi2DListFromDelaunayTri2D, _zVoronoi2DListFromDelaunayTri2DList, zVoronoi2DListFPrint, zVec2DDataVoronoiDiagram | _zDelaunayTri2DCreate, _zDelaunayTri2DFPrint, zDelaunayTri2DListVoronoi2DFPrint |

Total: 998 of 1422 functions.

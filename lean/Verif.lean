import Verif.Model.Loop
import Verif.Spec.TreePartition
import Verif.Model.CmeshOffset
import Verif.Lemmas.CmeshOffset
import Verif.Props.TreeOffset
import Verif.Spec.RTree
import Verif.Spec.Element
import Verif.Lemmas.RTree
import Verif.Lemmas.Element
import Verif.Model.Standalone
import Verif.Spec.Hypercube
import Verif.Lemmas.Standalone
import Verif.Lemmas.StandaloneIds
import Verif.Lemmas.StandaloneFaces
import Verif.Lemmas.StandaloneFaces2
import Verif.Lemmas.StandaloneTransform
import Verif.Props.Standalone
import Verif.Props.StandaloneFaces
import Verif.Model.UniformBounds
import Verif.Lemmas.UniformBounds
import Verif.Spec.Scheme
import Verif.Spec.Uniform
import Verif.Model.Populate
import Verif.Lemmas.Populate
import Verif.Props.StandaloneScheme
import Verif.Props.Uniform
import Verif.Model.VectorSplit
import Verif.Props.VectorSplit
import Verif.Model.VectorHandler
import Verif.Props.VectorHandler
import Verif.Model.Eclass
import Verif.Props.Eclass
import Verif.Model.Stash
import Verif.Props.Stash
import Verif.Model.VertexConn
import Verif.Props.VertexConn
import Verif.Model.RefCount
import Verif.Props.RefCount
import Verif.Spec.Adapt
import Verif.Model.Adapt
import Verif.Lemmas.Tiling
import Verif.Lemmas.AdaptRefine
import Verif.Lemmas.AdaptCoarsen
import Verif.Lemmas.AdaptCoarsen2
import Verif.Lemmas.AdaptFamily
import Verif.Lemmas.Adapt
import Verif.Lemmas.AdaptLoop
import Verif.Props.Adapt
import Verif.Props.AdaptForest
import Verif.Spec.Partition
import Verif.Spec.PartitionForest
import Verif.Model.Partition
import Verif.Lemmas.PartitionRange
import Verif.Lemmas.PartitionForest
import Verif.Props.Partition
import Verif.Lemmas.Rounding
import Verif.Lemmas.RunLoop
import Verif.Model.PartitionOffset
import Verif.Spec.WeightedPartition
import Verif.Lemmas.WeightedPartition
import Verif.Props.PartitionOffset
import Verif.Props.WeightedPartition
import Verif.Lemmas.Sample
import Verif.Model.LeafSearch
import Verif.Lemmas.LeafSearch
import Verif.Props.LeafSearch
import Verif.Model.ForestTrees
import Verif.Props.ForestTrees
import Verif.Spec.Search
import Verif.Model.Search
import Verif.Lemmas.Search
import Verif.Props.Search
import Verif.Spec.Face
import Verif.Props.StandaloneFaceScheme
import Verif.Spec.FaceIterate
import Verif.Model.FaceIterate
import Verif.Lemmas.FaceIterate
import Verif.Props.FaceIterate
import Verif.Model.Owner
import Verif.Spec.Owner
import Verif.Lemmas.Owner
import Verif.Lemmas.OwnerFace
import Verif.Props.Owner
import Verif.Spec.ForestArrays
import Verif.Model.ForestArrays
import Verif.Lemmas.ForestArrays
import Verif.Props.ForestArrays
import Verif.Spec.Pfc
import Verif.Model.Pfc
import Verif.Lemmas.PfcFamily
import Verif.Lemmas.Pfc
import Verif.Lemmas.PfcMessages
import Verif.Lemmas.PfcOffsets
import Verif.Props.Pfc
import Verif.Spec.Replace
import Verif.Model.Replace
import Verif.Lemmas.Replace
import Verif.Props.Replace
import Verif.Spec.Balance
import Verif.Model.Balance
import Verif.Lemmas.BalanceSeq
import Verif.Lemmas.Balance
import Verif.Props.Balance
import Verif.Lemmas.BitVec
import Verif.Lemmas.Regular
import Verif.Model.DefaultCommon
import Verif.Model.Dvertex
import Verif.Model.Dline
import Verif.Spec.Dline
import Verif.Lemmas.DefaultCommon
import Verif.Lemmas.Dline
import Verif.Props.Dvertex
import Verif.Props.Dline
import Verif.Model.Simplex
import Verif.Spec.Simplex
import Verif.Lemmas.Simplex
import Verif.Lemmas.SimplexIds
import Verif.Lemmas.SimplexSucc
import Verif.Lemmas.SimplexFamily
import Verif.Lemmas.Segment
import Verif.Lemmas.ElementIds
import Verif.Props.Simplex
import Verif.Model.SimplexFaces
import Verif.Lemmas.SimplexFaces
import Verif.Lemmas.FaceDescend
import Verif.Lemmas.SimplexFaces2
import Verif.Lemmas.SimplexNeighbor
import Verif.Lemmas.SimplexBoundary
import Verif.Lemmas.SimplexUnique
import Verif.Lemmas.SimplexExtrude
import Verif.Lemmas.SimplexTransform
import Verif.Props.SimplexFaces
import Verif.Model.Prism
import Verif.Spec.Prism
import Verif.Lemmas.ProductTree
import Verif.Lemmas.Prism
import Verif.Lemmas.PrismSucc
import Verif.Lemmas.PrismFaces
import Verif.Props.Prism
import Verif.Props.PrismFaces
import Verif.Model.Pyramid
import Verif.Spec.Pyramid
import Verif.Lemmas.Pyramid
import Verif.Lemmas.PyramidIds
import Verif.Lemmas.PyramidLinear
import Verif.Lemmas.PyramidSucc
import Verif.Lemmas.PyramidNca
import Verif.Lemmas.PyramidFamily
import Verif.Lemmas.PyramidPoints
import Verif.Props.Pyramid
import Verif.Model.PyramidFaces
import Verif.Spec.PyramidFaces
import Verif.Lemmas.PyramidSlots
import Verif.Lemmas.PyramidSwitch
import Verif.Lemmas.PyramidNeighbor
import Verif.Lemmas.PyramidInside
import Verif.Lemmas.PyramidPlane
import Verif.Lemmas.PyramidFaces
import Verif.Lemmas.PyramidBoundary
import Verif.Lemmas.PyramidExtrude
import Verif.Props.PyramidFaces
import Verif.Lemmas.StandaloneNeighbor
import Verif.Model.Cube
import Verif.Spec.P4est
import Verif.Lemmas.Cube
import Verif.Lemmas.CubeP4est
import Verif.Lemmas.P4estReference
import Verif.Lemmas.CubeFaces
import Verif.Props.Cube
import Verif.Props.CubeFaces
import Verif.Model.FaceNeighbor
import Verif.Spec.FaceNeighbor
import Verif.Spec.FaceGluing
import Verif.Lemmas.FaceNeighbor
import Verif.Lemmas.CmeshJoin
import Verif.Lemmas.FaceGluing
import Verif.Lemmas.FaceCorners
import Verif.Props.FaceNeighbor
import Verif.Spec.LeafNeighbors
import Verif.Model.LeafNeighbors
import Verif.Lemmas.LeafNeighbors
import Verif.Lemmas.FaceLift
import Verif.Lemmas.PyramidLift
import Verif.Lemmas.SimplexLift
import Verif.Lemmas.StandaloneLift
import Verif.Lemmas.CubeLift
import Verif.Lemmas.FaceClass
import Verif.Props.LeafNeighbors
import Verif.Model.Ghost
import Verif.Spec.Ghost
import Verif.Lemmas.GhostAdd
import Verif.Lemmas.GhostOwner
import Verif.Lemmas.GhostCallback
import Verif.Lemmas.GhostSearch
import Verif.Props.Ghost
import Verif.Lemmas.FaceOuter
import Verif.Props.GhostExample
import Verif.Lemmas.FaceParent
import Verif.Spec.DefaultForest
import Verif.Lemmas.FaceAcross
import Verif.Lemmas.DefaultForest
import Verif.Props.GhostDefault
import Verif.Model.GhostMessage
import Verif.Lemmas.GhostMessage
import Verif.Lemmas.GhostLayer
import Verif.Lemmas.GhostReceive
import Verif.Props.GhostMessage
import Verif.Model.ElementBytes
import Verif.Props.GhostMessageDefault
import Verif.Model.GhostExchange
import Verif.Props.GhostExchange
import Verif.Props.GhostExchangeDefault
import Verif.Model.ForestLib
import Verif.Lemmas.ForestLib
import Verif.Props.ForestLib
import Verif.Model.Geometry
import Verif.Spec.Geometry
import Verif.Lemmas.Geometry
import Verif.Lemmas.GeometryFaces
import Verif.Lemmas.GeometryCorners
import Verif.Lemmas.GeometryPartner
import Verif.Lemmas.GeometryLift
import Verif.Lemmas.GeometryCentroid
import Verif.Props.Geometry
import Verif.Model.JoinByVertices
import Verif.Spec.JoinByVertices
import Verif.Lemmas.JoinByVertices
import Verif.Lemmas.JoinByVerticesLoop
import Verif.Props.JoinByVertices
import Verif.Model.Measure
import Verif.Model.PointInside
import Verif.Spec.PointInside
import Verif.Lemmas.Frame
import Verif.Lemmas.PointInside
import Verif.Props.PointInside
import Verif.Spec.Measure
import Verif.Lemmas.Measure
import Verif.Lemmas.Flux
import Verif.Lemmas.Normal2
import Verif.Props.Measure
import Verif.Model.HypercubePad
import Verif.Spec.HypercubePad
import Verif.Lemmas.HypercubeBox
import Verif.Lemmas.HypercubeVertices
import Verif.Lemmas.HypercubeVertices3
import Verif.Lemmas.HypercubeJoins
import Verif.Lemmas.HypercubeFaces
import Verif.Lemmas.HypercubeMesh
import Verif.Props.HypercubePad
import Verif.Model.CadGeometry
import Verif.Spec.CadGeometry
import Verif.Lemmas.CadGeometry
import Verif.Props.CadGeometry
import Verif.Props.CadGeometryFalse
import Verif.Lemmas.CadPrism
import Verif.Props.CadPrism
import Verif.Props.CadPrismFalse
import Verif.Model.CadPlanar
import Verif.Spec.CadPlanar
import Verif.Props.CadPlanar
import Verif.Model.EclassTables
import Verif.Spec.EclassTables
import Verif.Props.EclassTables
import Verif.Model.Lagrange
import Verif.Spec.Lagrange
import Verif.Props.Lagrange
import Verif.Model.Sphere
import Verif.Spec.Sphere
import Verif.Props.Sphere
import Verif.Model.SphereMesh
import Verif.Props.SphereMesh

import Verif.Props.Serialize
import Verif.Props.Mesh
import Verif.Props.Internal
import Verif.Props.Editor
import Verif.Props.EditorPar
import Verif.Props.PointMap
import Verif.Props.Points
import Verif.Props.PLC
import Verif.Props.Circum
import Verif.Props.Measure
import Verif.Props.Query
import Verif.Props.Polygon
import Verif.Props.Convex
import Verif.Props.Hull
import Verif.Props.Ray
import Verif.Props.Box
import Verif.Props.Quant
import Verif.Props.Fill
import Verif.Props.Readout
import Verif.Props.Unique
import Verif.Props.Snap
import Verif.Props.Csg
import Verif.Props.Solid
import Verif.Props.Parallel
import Verif.Props.Exchange
import Verif.Props.Comm
import Verif.Props.DistCheck
import Verif.Props.Triangle
import Verif.Props.TriSides
import Verif.Props.Voronoi
import Verif.Props.Degenerate
import Verif.Props.Bounded
import Verif.Props.CApi
import Verif.Props.CApiMem
import Verif.Props.CApiPLC
import Verif.Props.Neighbors
import Verif.Props.NeighborsHidden
import Verif.Spec.Distributed
import Verif.Model.Distributed
import Verif.Proofs.VoronoiGeom
import Verif.Proofs.Distributed
import Verif.Props.Distributed
import Verif.Proofs.DistributedEx
import Verif.Props.DistributedEx
import Verif.Model.Hull3
import Verif.Spec.Hull3
import Verif.Proofs.Hull3Geom
import Verif.Proofs.Hull3
import Verif.Props.Hull3
import Verif.Model.Silo
import Verif.Spec.Silo
import Verif.Proofs.Silo
import Verif.Props.Silo
import Verif.Model.SiloParallel
import Verif.Spec.SiloParallel
import Verif.Props.SiloParallel
import Verif.Model.Oogl
import Verif.Spec.Oogl
import Verif.Props.Oogl
import Verif.Model.SiloC
import Verif.Spec.SiloC
import Verif.Props.SiloC
import Verif.Props.Python
import Verif.Props.DistBoundary
import Verif.Model.Simplify
import Verif.Spec.Simplify
import Verif.Props.Simplify
import Verif.Model.Simplify3
import Verif.Spec.Simplify3
import Verif.Props.Simplify3
import Verif.Props.Simplify3Fails
import Verif.Props.Simplify3Ex
import Verif.Props.Simplify3Flats
import Verif.Model.BoostGeo
import Verif.Spec.BoostGeo
import Verif.Props.BoostGeo
import Verif.Spec.Float
import Verif.Model.Predicates
import Verif.Model.Predicates3
import Verif.Spec.Predicates3
import Verif.Proofs.FloatApprox
import Verif.Proofs.FloatFilter
import Verif.Proofs.FloatFast
import Verif.Proofs.FloatBasic
import Verif.Proofs.FloatSum
import Verif.Proofs.FloatProd
import Verif.Proofs.FloatInit
import Verif.Proofs.FloatOrient
import Verif.Proofs.FloatAdapt
import Verif.Proofs.FloatMain
import Verif.Proofs.FloatRne
import Verif.Props.Predicates
import Verif.Props.Predicates3
import Verif.Model.Canned
import Verif.Spec.Canned
import Verif.Proofs.Canned
import Verif.Proofs.CannedGeom
import Verif.Proofs.CannedSphere
import Verif.Props.Canned
import Verif.Spec.Crossing
import Verif.Proofs.Crossing
import Verif.Props.Crossing
import Verif.Model.PolygonClass
import Verif.Spec.PolygonClass
import Verif.Proofs.PolygonClass
import Verif.Props.PolygonClass
import Verif.Model.QuantCoords
import Verif.Spec.QuantCoords
import Verif.Proofs.QuantCoords
import Verif.Props.QuantCoords
import Verif.Model.Cells1d
import Verif.Spec.Cells1d
import Verif.Proofs.Cells1d
import Verif.Props.Cells1d
import Verif.Model.Errors
import Verif.Spec.Errors
import Verif.Props.Errors
import Verif.Spec.SolidAny
import Verif.Proofs.SolidAny
import Verif.Proofs.SmallEps
import Verif.Proofs.SolidDir
import Verif.Proofs.PrismL
import Verif.Props.SolidAny
import Verif.Spec.SolidBound
import Verif.Proofs.Gordan
import Verif.Proofs.SolidEdge
import Verif.Proofs.SolidCore
import Verif.Proofs.SolidWay
import Verif.Proofs.SolidBound
import Verif.Props.SolidBound
import Verif.Props.PredicatesExact
import Verif.Proofs.Clipper
import Verif.Props.Clipper
import Verif.Props.Driver3
import Verif.Model.PredicatesAdapt
import Verif.Proofs.FloatLong
import Verif.Proofs.FloatScale
import Verif.Proofs.FloatEstimate
import Verif.Proofs.FloatAdapt3
import Verif.Props.PredicatesAdapt
import Verif.Model.QuantTess
import Verif.Spec.QuantTess
import Verif.Proofs.QuantTess
import Verif.Props.QuantTess
import Verif.Model.Unbounded
import Verif.Spec.Unbounded
import Verif.Proofs.Unbounded
import Verif.Props.Unbounded
import Verif.Model.PointArith
import Verif.Props.PointArith
import Verif.Model.Orphanage
import Verif.Spec.Orphanage
import Verif.Props.Orphanage
import Verif.Spec.OrphanageArea
import Verif.Props.OrphanageArea
import Verif.Model.Adopt
import Verif.Spec.Adopt
import Verif.Props.Adopt
import Verif.Model.BoostConvert
import Verif.Spec.BoostConvert
import Verif.Props.BoostConvert

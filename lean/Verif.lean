import Verif.Add
import Verif.AddModel
import Verif.AddRead
import Verif.AddReadModel
import Verif.AdjLemmas
import Verif.AdjModel
import Verif.AdjProps
import Verif.AdjV
import Verif.AdjVModel
import Verif.ApiHist
import Verif.ApiLemmas
import Verif.ApiModel
import Verif.ApiProps
import Verif.ApiSteps
import Verif.Arg
import Verif.ArgModel
import Verif.Bad
import Verif.BadModel
import Verif.BallLemmas
import Verif.BallModel
import Verif.BallProps
import Verif.Bdry
import Verif.BdryLemmas
import Verif.BdryModel
import Verif.BdryProps
import Verif.BdrySet
import Verif.BdrySetEx
import Verif.BdrySetModel
import Verif.Boule3
import Verif.Cavity
import Verif.CavityGeo
import Verif.CavityGrow
import Verif.CavityModel
import Verif.Chkmsh
import Verif.Chkmsh2
import Verif.ChkmshLemmas
import Verif.ChkmshModel
import Verif.Colver
import Verif.ColverLemmas
import Verif.ColverLoop
import Verif.ColverModel
import Verif.ColverProps
import Verif.ColverStep
import Verif.CursorProps
import Verif.Del2
import Verif.Del2Border
import Verif.Del2Cav
import Verif.Del2Loop
import Verif.Del2Model
import Verif.Del2Plane
import Verif.Delone
import Verif.DeloneGeo
import Verif.DeloneGlue
import Verif.DeloneLoop
import Verif.DeloneMesh
import Verif.DeloneModel
import Verif.DeloneRec
import Verif.DeloneSurf
import Verif.Edge2Lemmas
import Verif.Edge2Model
import Verif.Edge2Props
import Verif.Edge2Side
import Verif.Edge2Spec
import Verif.Edge2Walk
import Verif.GEdge
import Verif.GEdgeGeom
import Verif.GEdgeInfer
import Verif.GEdgeLemmas
import Verif.GEdgeModel
import Verif.GradProps
import Verif.HashLemmas
import Verif.HashModel
import Verif.HashProps
import Verif.HashTriaInv
import Verif.HashTriaLemmas
import Verif.HashTriaModel
import Verif.HashTriaPar
import Verif.HashTriaProps
import Verif.Histo
import Verif.HistoModel
import Verif.Io
import Verif.IoAgain
import Verif.IoLemmas
import Verif.IoMain
import Verif.IoModel
import Verif.IoProps
import Verif.IoRead
import Verif.IsoProps
import Verif.Lag
import Verif.LagExt
import Verif.LagModel
import Verif.LenRep
import Verif.LenRepModel
import Verif.Limit
import Verif.LimitModel
import Verif.LinAlg
import Verif.LocPar
import Verif.LocParModel
import Verif.Ls
import Verif.LsEx
import Verif.LsLemmas
import Verif.LsModel
import Verif.LsProps
import Verif.LsRuns
import Verif.LsSnap
import Verif.LsTri
import Verif.LsTriEx
import Verif.LsTriLemmas
import Verif.LsTriModel
import Verif.LsTriOne
import Verif.LsTriProps
import Verif.LsTriSnap
import Verif.Mani
import Verif.ManiModel
import Verif.MatModel
import Verif.MatProps
import Verif.Mean
import Verif.MeanModel
import Verif.MemProps
import Verif.Met2Diag
import Verif.Met2Ex
import Verif.Met2Interp
import Verif.Met2Lemmas
import Verif.Met2Model
import Verif.Met2Props
import Verif.Met2Spec
import Verif.Move
import Verif.MoveModel
import Verif.NameProps
import Verif.NonBdy
import Verif.NonBdyModel
import Verif.OctLemmas
import Verif.OctModel
import Verif.OctProps
import Verif.OctSearch
import Verif.OrientInv
import Verif.OrientLemmas
import Verif.OrientModel
import Verif.OrientProps
import Verif.OrientSpec
import Verif.OrientWalk
import Verif.Overlap
import Verif.OverlapGeo
import Verif.OverlapOps
import Verif.OverlapStar
import Verif.Pack2Edges
import Verif.Pack2Extra
import Verif.Pack2Lemmas
import Verif.Pack2Model
import Verif.Pack2Props
import Verif.Pack2Tri
import Verif.Pack3Extra
import Verif.Pack3Lemmas
import Verif.Pack3Model
import Verif.Pack3Props
import Verif.Pack3Tet
import Verif.PakProps
import Verif.ParFile
import Verif.ParFileModel
import Verif.ParProps
import Verif.ParS
import Verif.ParSModel
import Verif.Param
import Verif.ParamModel
import Verif.PoolLemmas
import Verif.PoolModel
import Verif.PoolProps
import Verif.Pop
import Verif.PopModel
import Verif.Qual
import Verif.QualModel
import Verif.QualProps
import Verif.Reglue
import Verif.Renum
import Verif.RenumModel
import Verif.Req2
import Verif.Req2Ana
import Verif.Req2Col
import Verif.Req2Lemmas
import Verif.Req2Model
import Verif.ReqS
import Verif.ReqSLemmas
import Verif.ReqSModel
import Verif.Ridge
import Verif.RidgeFan
import Verif.RidgeLemmas
import Verif.RidgeModel
import Verif.Rmc
import Verif.RmcEx
import Verif.RmcFrac
import Verif.RmcLemmas
import Verif.RmcModel
import Verif.RmcVol
import Verif.ScaleAni
import Verif.ScaleLemmas
import Verif.ScaleModel
import Verif.ScaleProps
import Verif.ShellGet
import Verif.ShellLemmas
import Verif.ShellModel
import Verif.ShellProps
import Verif.ShellRuns
import Verif.ShellTag
import Verif.SolIo
import Verif.SolIoModel
import Verif.SolProps
import Verif.SortProps
import Verif.Spl1bAdj
import Verif.Spl1bFaces
import Verif.Spl1bGeo
import Verif.Spl1bModel
import Verif.Spl1bProps
import Verif.Spl1bRec
import Verif.Spl1bRun
import Verif.Split3Dich
import Verif.Split3Lemmas
import Verif.Split3Lift
import Verif.Split3Mesh
import Verif.Split3Model
import Verif.Split3Props
import Verif.Split3Runs
import Verif.Split3RunsF
import Verif.Split3Spec
import Verif.Split3Star
import Verif.Split3Vol
import Verif.SubProps
import Verif.Subd
import Verif.SubdModel
import Verif.Surf
import Verif.SurfCol
import Verif.SurfEx
import Verif.SurfModel
import Verif.Swap23Adj
import Verif.Swap23Lemmas
import Verif.Swap23Model
import Verif.Swap23Props
import Verif.Swpg
import Verif.SwpgBall
import Verif.SwpgModel
import Verif.SwpgProps
import Verif.SwpgTour
import Verif.TetTri
import Verif.TetTriModel
import Verif.Tri2Circ
import Verif.Tri2ColLemmas
import Verif.Tri2ColModel
import Verif.Tri2ColProps
import Verif.Tri2Lemmas
import Verif.Tri2Model
import Verif.Tri2Props
import Verif.UEdge
import Verif.UEdgeModel
import Verif.Util

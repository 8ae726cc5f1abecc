import Verif.Props.Time
import Verif.Props.VoxelCasting
import Verif.Props.Octree
import Verif.Props.CloudIO
import Verif.Props.CloudHolder
import Verif.Props.CloudGeom
import Verif.Props.Normals
import Verif.Props.Gps
import Verif.Props.Collector
import Verif.Props.Filters
import Verif.Props.FilterDecisions
import Verif.Props.VoxelGrid
import Verif.Props.FilterConfig
import Verif.Props.Mrvm
import Verif.Props.MrvmParallel
import Verif.Props.Names
import Verif.Props.Submap
import Verif.Props.SubmapSwap
import Verif.Props.ThreadPool
import Verif.Props.Connect
import Verif.Props.SaveMaps
import Verif.Props.MapPackage
import Verif.Props.Loop
import Verif.Props.LoopCheck
import Verif.Props.ViewGraph
import Verif.Props.Isam
import Verif.Props.IcpFast
import Verif.Props.Extrapolator
import Verif.Props.Playback
import Verif.Props.MultiTraj
import Verif.Props.M2dp
import Verif.Props.DepthCluster
import Verif.Props.FrontEnd
import Verif.Props.Odom
import Verif.Props.Config
import Verif.Props.MatchScore
import Verif.Props.Ground2
import Verif.Props.Euler
import Verif.Props.NdtGrid
import Verif.Props.NdtDeriv
import Verif.Props.NdtLoop
import Verif.Props.IcpStep
import Verif.Props.ImuTracker
import Verif.Props.LoopCheckReal
import Verif.Props.ImuQueue
import Verif.Props.ImuSplit
import Verif.Props.PoseNormal
import Verif.Props.Locks
import Verif.Props.GpsAlign
import Verif.Props.Switches
import Verif.Props.PathExport
import Verif.Props.Gicp
import Verif.Props.Races
import Verif.Props.Pipeline
import Verif.Props.Profile
import Verif.Props.EndToEnd
import Verif.Props.Extrinsics
import Verif.Props.GpsInit
import Verif.Props.MathHelpers
import Verif.Props.Node
import Verif.Props.Display
import Verif.Props.Seconds
import Verif.Props.PlaceFloat
import Verif.Props.KittiPose
import Verif.Props.OctreeF
import Verif.Props.StaticKeep
import Verif.Props.CastF
import Verif.Props.MrvmOdds
import Verif.Props.AverageF
import Verif.Props.Tools
import Verif.Props.Slerp
import Verif.Props.Invalid
import Verif.Props.RepoTests
import Verif.Props.ProcMon
import Verif.Props.PlaneSampler
import Verif.Props.ImuGps
import Verif.Props.PackageF
import Verif.Props.Xml
import Verif.Props.XmlNum
import Verif.Props.MapFiles
import Verif.Props.XmlHand
import Verif.Props.ConfigText
import Verif.Props.PathMatch
import Verif.Props.Lum
import Verif.Props.RangePixel
import Verif.Props.XmlEnc
import Verif.Props.LeastNorm
import Verif.Props.PointToPoint
import Verif.Props.StartNode
import Verif.Props.Objective
import Verif.Props.JoinMaps
import Verif.Props.CloseLoop
import Verif.Props.GpuKnn
import Verif.Props.OdomExtrap
import Verif.Props.NdtDirect
import Verif.Props.AtomicWrap
import Verif.Props.LifeCycle
import Verif.Props.CellHash
import Verif.Props.NdtGridF
import Verif.Props.InterpF
import Verif.Props.PoseChain
import Verif.Props.MotionFilter
import Verif.Props.PlaneFactor
import Verif.Props.RangePixelF
import Verif.Props.CompensateF
import Verif.Props.Replay
import Verif.Props.Memory
import Verif.Props.LostTrack
import Verif.Props.Crash
import Verif.Props.DiskFull
import Verif.Props.NormalEst
import Verif.Props.Standing
import Verif.Props.GicpInner
import Verif.Props.FrameFree
import Verif.Props.AnyOrder
import Verif.Props.Date
import Verif.Props.WorldFrame
import Verif.Props.MapOrigin
import Verif.Props.Heading
import Verif.Props.NextStep
import Verif.Props.Brightness
import Verif.Props.Stricter
import Verif.Props.Longer
import Verif.Props.XmlLines
import Verif.Props.Units

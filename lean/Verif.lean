import Verif.Props.C01_C02_Error
import Verif.Props.C03_List
import Verif.Props.C04_C06_Queue
import Verif.Props.C07_C12_EndCond
import Verif.Props.C13_C16_TimeLoop
import Verif.Props.C17_C19_Wiener
import Verif.Props.C20_C21_Mpi
import Verif.Props.C22_C26_Dist
import Verif.Props.C25_Hist
import Verif.Props.C27_C28_Orbit
import Verif.Props.C29_Transcoef
import Verif.Props.C30_C32_Wall3D
import Verif.Props.C33_C34_Wall2D
import Verif.Props.C35_Linint
import Verif.Props.C36_C39_Spline
import Verif.Props.C40_C41_Random
import Verif.Props.C55_C66_MathC
import Verif.Props.C42_C43_Vpa
import Verif.Props.C44_C45_Coord
import Verif.Props.C46_Physlib
import Verif.Props.C47_Gctransform
import Verif.Props.C78_GcFirstOrder
import Verif.Props.C48_Gceom
import Verif.Props.C49_RungeKutta
import Verif.Props.C81_Step
import Verif.Props.C82_Theta
import Verif.Props.C64_FieldLine
import Verif.Props.C84_BGS
import Verif.Props.C63_Bfield
import Verif.Props.C85_C86_Bfield
import Verif.Props.C50_Atomic
import Verif.Props.C54_Asigma
import Verif.Props.C62_Suzuki
import Verif.Props.C90_Coefs
import Verif.Props.C51_Mccc
import Verif.Props.C92_Mccc
import Verif.Props.C51_Witness
import Verif.Props.C94_Fo
import Verif.Props.C94_Gc
import Verif.Props.C95_Suggest
import Verif.Props.C52_Plasma
import Verif.Props.C53_Hybrid
import Verif.Props.C97_Plasma
import Verif.Props.C60_Bbnbi
import Verif.Props.C99_Nbi
import Verif.Props.C100_Trace
import Verif.Props.C101_NbiEnd
import Verif.Props.C59_Sample
import Verif.Props.C61_Fusion
import Verif.Props.C102_Collect
import Verif.Props.C103_Maxwell
import Verif.Props.C104_BoschHale
import Verif.Model.Neutral
import Verif.Model.Efield
import Verif.Model.Boozer
import Verif.Model.Mhd
import Verif.Props.C105_Neutral
import Verif.Props.C106_Efield
import Verif.Props.C107_Boozer
import Verif.Props.C108_Mhd
import Verif.Props.C109_Input
import Verif.Props.C110_Convert
import Verif.Model.Libascot
import Verif.Model.LibBatch
import Verif.Model.Biosaw
import Verif.Props.C111_RhoTheta
import Verif.Props.C112_Descent
import Verif.Props.C113_Batch
import Verif.Props.C114_Rates
import Verif.Props.C115_BoozerFun
import Verif.Props.C116_Biosaw
import Verif.Model.Options
import Verif.Spec.OptionDoc
import Verif.Props.C117_Options
import Verif.Props.C118_EndCondOptions
import Verif.Props.C119_Planes
import Verif.Model.MarkerFile
import Verif.Spec.MarkerDoc
import Verif.Lemmas.MarkerFile
import Verif.Props.C120_MarkerFile
import Verif.Model.Output
import Verif.Spec.OutputDoc
import Verif.Lemmas.Output
import Verif.Props.C121_State
import Verif.Props.C122_OrbitFile
import Verif.Props.C123_TranscoefFile
import Verif.Model.StatePy
import Verif.Spec.Query
import Verif.Props.C124_Summary
import Verif.Model.DistFile
import Verif.Spec.DistDoc
import Verif.Props.C125_DistFile
import Verif.Props.C126_HistFile
import Verif.Model.RunFile
import Verif.Spec.RunDoc
import Verif.Props.C127_RunGroup
import Verif.Props.C128_InputChoice
import Verif.Props.C129_FileNames
import Verif.Model.AscotMain
import Verif.Props.C130_Main
import Verif.Model.PyFile
import Verif.Model.PlasmaFile
import Verif.Spec.PyArr
import Verif.Lemmas.PyFile
import Verif.Props.C131_PlasmaFile
import Verif.Props.C132_Neutrality
import Verif.Model.EfieldFile
import Verif.Model.NeutralFile
import Verif.Props.C133_EfieldFile
import Verif.Props.C134_NeutralFile
import Verif.Model.WallFile
import Verif.Model.WallLoad
import Verif.Model.WallGeom
import Verif.Lemmas.WallLoad
import Verif.Props.C135_WallFile
import Verif.Props.C136_WallLoad
import Verif.Props.C137_WallGeom
import Verif.Model.BfieldFile
import Verif.Spec.Tensor
import Verif.Lemmas.Tensor
import Verif.Props.C138_BfieldFile
import Verif.Props.C138_BfieldAnalytic
import Verif.Spec.Smooth
import Verif.Lemmas.SplineSmooth
import Verif.Props.C139_Smooth
import Verif.Props.C139_Fields
import Verif.Model.SplineSetup
import Verif.Spec.SplineFun
import Verif.Lemmas.SplineFun
import Verif.Model.MhdFile
import Verif.Props.C140_MhdFile
import Verif.Model.BoozerFile
import Verif.Props.C141_BoozerFile
import Verif.Model.AsigmaFile
import Verif.Props.C142_AsigmaFile
import Verif.Model.NbiFile
import Verif.Props.C143_NbiFile
import Verif.Props.C144_NbiGeometry
import Verif.Props.C145_Provide
import Verif.Props.C146_InputState
import Verif.Props.C147_ProvideType
import Verif.Model.FileTree
import Verif.Spec.FileDoc
import Verif.Lemmas.FileTree
import Verif.Lemmas.FileOps
import Verif.Lemmas.FileTags
import Verif.Lemmas.FileBuild
import Verif.Props.C148_FileTree
import Verif.Props.C149_FileView
import Verif.Model.Combine
import Verif.Spec.Combined
import Verif.Lemmas.Combine
import Verif.Props.C150_Combine
import Verif.Model.Cocos
import Verif.Spec.Equilibrium
import Verif.Lemmas.Cocos
import Verif.Props.C151_Cocos
import Verif.Model.Geqdsk
import Verif.Spec.EqField
import Verif.Lemmas.Geqdsk
import Verif.Props.C152_Geqdsk
import Verif.Model.PlasmaImport
import Verif.Spec.ImportedPlasma
import Verif.Lemmas.PlasmaImport
import Verif.Props.C153_PlasmaImport
import Verif.Model.MarkerGen
import Verif.Spec.Sampled
import Verif.Lemmas.MarkerGen
import Verif.Props.C154_MarkerGen
import Verif.Model.StateQnt
import Verif.Spec.Kinematic
import Verif.Lemmas.StateQnt
import Verif.Props.C155_StateQnt
import Verif.Model.OrbitQnt
import Verif.Spec.OrbitPoints
import Verif.Lemmas.OrbitQnt
import Verif.Props.C156_OrbitQnt
import Verif.Model.Rfof
import Verif.Props.C157_Rfof
import Verif.Model.DistData
import Verif.Spec.Marginal
import Verif.Lemmas.DistData
import Verif.Props.C158_DistData
import Verif.Model.ExiDist
import Verif.Props.C159_ExiDist
import Verif.Model.Moments
import Verif.Props.C160_Moments
import Verif.Model.RhoVolume
import Verif.Spec.Polygon
import Verif.Lemmas.RhoVolume
import Verif.Props.C161_RhoVolume
import Verif.Model.AfsiSetup
import Verif.Props.C162_AfsiSetup
import Verif.Spec.Revolve
import Verif.Model.CoilField
import Verif.Props.C163_CoilField
import Verif.Spec.FieldLine
import Verif.Model.BoozerMake
import Verif.Props.C164_BoozerMake
import Verif.Model.AnalyticInputs
import Verif.Props.C165_AnalyticInputs
import Verif.Props.C166_ChargeExchange
import Verif.Model.TimeStep
import Verif.Spec.Gyration
import Verif.Lemmas.Gyration
import Verif.Props.C167_TimeStep
import Verif.Model.Memory
import Verif.Spec.Leak
import Verif.Lemmas.Memory
import Verif.Props.C168_Memory
import Verif.Model.PoincareRun
import Verif.Lemmas.PoincareRun
import Verif.Props.C169_PoincareRun
import Verif.Model.InteractiveOptions
import Verif.Lemmas.InteractiveOptions
import Verif.Props.C170_InteractiveOptions
import Verif.Model.InteractiveMarkers
import Verif.Props.C171_InteractiveMarkers
import Verif.Spec.Session
import Verif.Model.InteractiveRun
import Verif.Lemmas.InteractiveRun
import Verif.Props.C172_InteractiveRun
import Verif.Model.VirtualRun
import Verif.Props.C173_VirtualRun
import Verif.Model.Arguments
import Verif.Spec.CommandLine
import Verif.Props.C174_Arguments
import Verif.Model.PncrPlanes
import Verif.Props.C175_PncrPlanes
import Verif.Model.GatherDiag
import Verif.Props.C176_GatherDiag
import Verif.Model.InputEval
import Verif.Spec.InputEval
import Verif.Props.C177_InputEval
import Verif.Model.PyCoefs
import Verif.Spec.PyCoefs
import Verif.Props.C178_PyCoefs
import Verif.Model.Resonance
import Verif.Props.C179_Resonance
import Verif.Model.MhdPotentials
import Verif.Props.C180_MhdPotentials
import Verif.Model.Species
import Verif.Props.C181_Species
import Verif.Model.Seam
import Verif.Props.C182_Seam
import Verif.Model.LossSummary
import Verif.Props.C183_LossSummary
import Verif.Model.OrbitAverage
import Verif.Props.C184_OrbitAverage

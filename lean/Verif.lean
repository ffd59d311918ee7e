import Verif.Props.Scan
import Verif.Props.FSC
import Verif.Props.FSCCheck
import Verif.Props.Viterbi
import Verif.Props.LQT
import Verif.Props.LQTBatch
import Verif.Props.LQR
import Verif.Props.LQTTF
import Verif.Props.LQTCheck
import Verif.Props.Condensing
import Verif.Props.NLQT
import Verif.Props.Parareal
import Verif.Props.CLQT
import Verif.Props.CLQTFlow
import Verif.Props.SQP
import Verif.Props.SQPDescent
import Verif.Model.HJB
import Verif.Proof.HJB
import Verif.Proof.HJBPass
import Verif.Proof.HJBBlock
import Verif.Proof.HJBStable
import Verif.Proof.HJBConv
import Verif.Proof.Shooting
import Verif.Props.HJB
import Verif.Props.HJBUpwind
import Verif.Props.Shooting
import Verif.Model.Disc
import Verif.Proof.Disc
import Verif.Props.Disc
import Verif.Model.ExamplesReal
import Verif.Props.ExamplesReal
import Verif.Model.TextModel
import Verif.Proof.TextModel
import Verif.Proof.TextCount
import Verif.Props.TextModel
import Verif.Model.Examples
import Verif.Props.Examples
import Verif.Props.CLQTFwdBwd
import Verif.Model.FSCTF
import Verif.Proof.FSCTF
import Verif.Props.FSCTF
import Verif.Model.TFLevels
import Verif.Props.TFLevels
import Verif.Model.CLQR
import Verif.Spec.CLQR
import Verif.Proof.CLQRExact
import Verif.Proof.CLQREq
import Verif.Proof.CLQRFwd
import Verif.Props.CLQR
import Verif.Spec.NLQT
import Verif.Proof.NLQTStat
import Verif.Props.NLQTStat
import Verif.Model.NLQTTF
import Verif.Spec.NLQTTF
import Verif.Props.NLQTTF
import Verif.Model.CondensingTF
import Verif.Spec.CondensingTF
import Verif.Proof.CondensingTF
import Verif.Proof.CondensingTFTop
import Verif.Props.CondensingTF
import Verif.Model.CLQTTF
import Verif.Proof.PyRel
import Verif.Proof.CLQTTF
import Verif.Proof.CLQTTFPar
import Verif.Props.CLQTTF
import Verif.Model.PararealTF
import Verif.Proof.PararealTF
import Verif.Proof.PararealTFFw
import Verif.Proof.PararealTFAbc
import Verif.Props.PararealTF
import Verif.Model.MassModel
import Verif.Spec.MassModel
import Verif.Proof.ExampleLQT
import Verif.Proof.MassStep
import Verif.Proof.MassModel
import Verif.Proof.MassEnergy
import Verif.Proof.MassLQT
import Verif.Proof.MassStable
import Verif.Props.MassModel
import Verif.Model.TrackModels
import Verif.Spec.TrackModels
import Verif.Proof.TrackModels
import Verif.Proof.LinearModel
import Verif.Props.LinearModel
import Verif.Proof.NonlinearModel
import Verif.Proof.NLQTRuns
import Verif.Props.NonlinearModel
import Verif.Model.ShootingSQP
import Verif.Proof.Quad
import Verif.Proof.ShootingLQ
import Verif.Proof.ShootingEval
import Verif.Proof.ShootingTF
import Verif.Proof.AD
import Verif.Props.ShootingSQP
import Verif.Model.CNonlin
import Verif.Proof.CNonlin
import Verif.Props.CNonlin
import Verif.Spec.Stochastic
import Verif.Model.SpeedTest
import Verif.Proof.SpeedTest
import Verif.Props.SpeedTest
import Verif.Model.Dare
import Verif.Spec.LQRStat
import Verif.Proof.LQRStat
import Verif.Proof.LQRLimit
import Verif.Props.LQRStat
import Verif.Model.SpeedLinear
import Verif.Proof.SpeedLinear
import Verif.Proof.SpeedItems
import Verif.Props.SpeedLinear
import Verif.Model.SpeedFinite
import Verif.Proof.SpeedFinite
import Verif.Props.SpeedFinite
import Verif.Model.SpeedNonlinear
import Verif.Props.SpeedNonlinear
import Verif.Model.SpeedContlin
import Verif.Proof.SpeedContlin
import Verif.Props.SpeedContlin
import Verif.Model.SpeedHJB
import Verif.Proof.SpeedHJB
import Verif.Props.SpeedHJB
import Verif.Proof.SpeedStart
import Verif.Proof.RKConv
import Verif.Proof.RKGood
import Verif.Spec.CLQTReg
import Verif.Proof.CLQTConv
import Verif.Proof.ODEExist
import Verif.Proof.RicExist
import Verif.Proof.CLQTExist
import Verif.Proof.CLQTConvSeq
import Verif.Props.CLQTConv
import Verif.Proof.ScanGraded
import Verif.Proof.CombCont
import Verif.Proof.CLQTElem
import Verif.Spec.ScanDepth
import Verif.Proof.CLQTParConv
import Verif.Props.CLQTParConv
import Verif.Proof.CLQTHam
import Verif.Proof.CLQTFBConv
import Verif.Proof.CLQTFBPar
import Verif.Props.CLQTFBConv
import Verif.Model.Experiments
import Verif.Proof.Experiments
import Verif.Proof.ExperimentsMain
import Verif.Props.Experiments
import Verif.Props.ExperimentsBellman
import Verif.Proof.ExperimentsHJB
import Verif.Props.ExperimentsHJB
import Verif.Proof.ExperimentsViterbi
import Verif.Props.ExperimentsViterbi
import Verif.Model.Drivers
import Verif.Proof.Drivers
import Verif.Props.Drivers
import Verif.Props.DriversMore
import Verif.Props.DriversDir
import Verif.Model.NotebookLQR
import Verif.Proof.NotebookLQR
import Verif.Props.NotebookLQR
import Verif.Model.NotebookContlin
import Verif.Proof.NotebookContlin
import Verif.Props.NotebookContlin
import Verif.Model.NotebookFinite
import Verif.Proof.NotebookFinite
import Verif.Props.NotebookFinite
import Verif.Model.NotebookLinear
import Verif.Proof.NotebookLinear
import Verif.Props.NotebookLinear
import Verif.Model.NotebookNonlinear
import Verif.Props.NotebookNonlinear
import Verif.Model.Tensor
import Verif.Model.FSCTensor
import Verif.Props.TensorRep
import Verif.Props.FSCTensor
import Verif.Model.ViterbiTensor
import Verif.Props.ViterbiTensor
import Verif.Model.CondensingTensor
import Verif.Props.CondensingTensor
import Verif.Model.LQTTensor
import Verif.Props.LQTTensor
import Verif.Model.NLQTTensor
import Verif.Props.NLQTTensor
import Verif.Model.SQPTensor
import Verif.Props.SQPTensor
import Verif.Model.HJBTensor
import Verif.Props.HJBTensor
import Verif.Model.ShootingTensor
import Verif.Props.ShootingTensor
import Verif.Model.CLQTTensor
import Verif.Props.CLQTTensor
import Verif.Model.PararealTensor
import Verif.Props.PararealTensor
import Verif.Model.ModelsTensor
import Verif.Props.TensorModels
import Verif.Props.ModelsTensor
import Verif.Props.ParTensorConv
import Verif.Proof.CLQTHold
import Verif.Props.CLQTHold
import Verif.Model.FSCTests
import Verif.Proof.FSCTests
import Verif.Props.FSCTests
import Verif.Model.FSCTFTests
import Verif.Proof.FSCTFTests
import Verif.Props.FSCTFTests
import Verif.Proof.FSCTestsSound
import Verif.Props.FSCTestsSound
import Verif.Model.DiffeqTests
import Verif.Proof.DiffeqTests
import Verif.Props.DiffeqTests
import Verif.Model.LQTTests
import Verif.Proof.LQTTests
import Verif.Props.LQTTests
import Verif.Model.MiscTests
import Verif.Proof.MiscTests
import Verif.Props.MiscTests
import Verif.Model.CondensingTests
import Verif.Proof.CondensingTests
import Verif.Props.CondensingTests
import Verif.Model.ViterbiTests
import Verif.Proof.ViterbiTests
import Verif.Props.ViterbiTests
import Verif.Proof.FSCFirst
import Verif.Props.FSCFirst
import Verif.Model.ViterbiTFTests
import Verif.Proof.ViterbiTFTests
import Verif.Props.ViterbiTFTests

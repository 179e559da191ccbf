import Verif.Props.Loader
import Verif.Props.Window
import Verif.Props.Attitude
import Verif.Props.Math
import Verif.Props.Propagator
import Verif.Props.PropagatorNum
import Verif.Props.PropagatorNan
import Verif.Props.Triang
import Verif.Props.Pnp
import Verif.Props.UpdateCov
import Verif.Props.Kalman
import Verif.Props.UpdateState
import Verif.Props.UpdateJac
import Verif.Props.Select
import Verif.Props.UpdateDims
import Verif.Props.Config
import Verif.Lemmas.UpdateSafe
import Verif.Lemmas.UpdateOk
import Verif.Lemmas.InitOk
import Verif.Lemmas.BackendSafe
import Verif.Props.Backend
import Verif.Lemmas.AnyRun
import Verif.Props.Safety
import Verif.Props.Restart
import Verif.Props.Running
import Verif.Props.Startup
import Verif.Lemmas.ResetSafe
import Verif.Props.Reset
import Verif.Props.FilterCov
import Verif.Spec.Reckon
import Verif.Props.Reckon
import Verif.Props.KalmanOpt
import Verif.Lemmas.Gram
import Verif.Lemmas.Stack
import Verif.Props.Order
import Verif.Lemmas.Agree
import Verif.Spec.Runs
import Verif.Lemmas.AgreeRun
import Verif.Props.Junk
import Verif.Props.OrderRun
import Verif.Lemmas.ErrMap
import Verif.Props.Motion
import Verif.Spec.ErrState
import Verif.Props.Linear
import Verif.Props.Correction
import Verif.Props.Sequential
import Verif.Spec.Exact
import Verif.Lemmas.Svd
import Verif.Props.Exact
import Verif.Props.ExactRun
import Verif.Spec.Triang
import Verif.Props.TriangStep
import Verif.Spec.Euler
import Verif.Props.Euler
import Verif.Spec.Rotation
import Verif.Props.Rotation
import Verif.Props.InitPose
import Verif.Model.Demo
import Verif.Spec.Demo
import Verif.Props.Demo
import Verif.Props.DemoCases
import Verif.Lemmas.UpdateInv
import Verif.Lemmas.ZeroCov
import Verif.Props.Fixed
import Verif.Spec.Gauge
import Verif.Props.Gauge
import Verif.Props.TwoViews
import Verif.Model.Tests
import Verif.Props.Tests
import Verif.Spec.Heading
import Verif.Lemmas.Turn
import Verif.Lemmas.TurnMeas
import Verif.Lemmas.TurnSel
import Verif.Lemmas.TurnUpd
import Verif.Lemmas.TurnInit
import Verif.Lemmas.TurnRun
import Verif.Props.HeadingLib
import Verif.Props.Heading
import Verif.Props.Origin
import Verif.Spec.Shift
import Verif.Lemmas.Shift
import Verif.Props.Shift
import Verif.Spec.Float
import Verif.Lemmas.Float
import Verif.Props.Float
import Verif.Props.Ieee
import Verif.Props.Lost
import Verif.Props.Values
import Verif.Props.Memory
import Verif.Props.Size
import Verif.Model.Hash
import Verif.Lemmas.Hash
import Verif.Props.Hash
import Verif.Model.Alias
import Verif.Props.Alias
import Verif.Props.Packets
import Verif.Props.PnpStep
import Verif.Spec.Names
import Verif.Lemmas.Names
import Verif.Props.Names
import Verif.Spec.Cams
import Verif.Lemmas.Cams
import Verif.Lemmas.CamsRun
import Verif.Props.Cams
import Verif.Model.Process
import Verif.Props.Process
import Verif.Props.AllOrders
import Verif.Props.Rest
import Verif.Props.Noise
import Verif.Props.Reuse
import Verif.Lemmas.Converge
import Verif.Props.Converge
import Verif.Props.Steady
import Verif.Props.Drift
import Verif.Props.Degenerate
import Verif.Model.Print
import Verif.Props.Print
import Verif.Props.Cases
import Verif.Spec.Offset
import Verif.Lemmas.Offset
import Verif.Props.Unlearned
import Verif.Props.Symmetric
import Verif.Props.Yaw
import Verif.Props.Clock
import Verif.Props.Variance
import Verif.Props.Mixing
import Verif.Props.Stall
import Verif.Model.Timer
import Verif.Props.Timer

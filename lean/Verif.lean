import Verif.Props.Memory
import Verif.Props.Tool
import Verif.Props.Linear
import Verif.Props.Container
import Verif.Props.Optim
import Verif.Props.FC
import Verif.Props.Conv
import Verif.Props.ConvExact
import Verif.Props.Pool
import Verif.Props.Net
import Verif.Props.Train
import Verif.Props.Activation
import Verif.Props.Loss
import Verif.Props.Fused
import Verif.Props.Regression
import Verif.Props.Checker
import Verif.Props.Random
import Verif.Props.Serial
import Verif.Props.Own
import Verif.Props.TrainSafe
import Verif.Props.LossRace
import Verif.Props.Descent
import Verif.Props.AllocFail
import Verif.Props.ContThrow
import Verif.Props.OptMem
import Verif.Props.Locker
import Verif.Props.Iter
import Verif.Props.StepBound
import Verif.Props.Library
import Verif.Props.Rounding
import Verif.Props.RoundingConv
import Verif.Props.Checkpoint
import Verif.Props.Reproduce
import Verif.Props.RandObj
import Verif.Props.Order
import Verif.Props.Stack
import Verif.Props.StackTrain
import Verif.Props.Alias
import Verif.Props.HeapNet
import Verif.Props.Feedback
import Verif.Props.Volume
import Verif.Props.NaN
import Verif.Props.AdamFlt
import Verif.Props.OptRate
import Verif.Props.Overflow
import Verif.Props.TensorVal
import Verif.Props.Fresh
import Verif.Props.ContRef
import Verif.Props.Cut
import Verif.Props.ThreadProgram
import Verif.Props.HeapLife
import Verif.Props.HeapOpt
import Verif.Props.Shared
import Verif.Props.Grow
import Verif.Props.Units
import Verif.Props.Class
import Verif.Props.Rescale
import Verif.Props.Still
import Verif.Props.Relabel
import Verif.Props.ConvAlg
import Verif.Props.PoolAlg
import Verif.Props.Place
import Verif.Props.StackOrder
import Verif.Props.StackResume
import Verif.Props.Demand
import Verif.Props.RegressionAlg
import Verif.Props.Symmetry
import Verif.Props.Robust
import Verif.Props.Converge
import Verif.Props.Rule
import Verif.Props.RuleLimit
import Verif.Props.Fit
import Verif.Props.Accuracy
import Verif.Props.Classify
import Verif.Props.Precision
import Verif.Props.Decay
import Verif.Props.Online
import Verif.Props.Momentum
import Verif.Props.AdaFit
import Verif.Props.RmsFit
import Verif.Props.RuleStack
import Verif.Props.Represent
import Verif.Props.Nearest
import Verif.Props.FitRate
import Verif.Props.Interp
import Verif.Props.Cycle
import Verif.Props.Epoch
import Verif.Props.Schedule
import Verif.Props.FitObject

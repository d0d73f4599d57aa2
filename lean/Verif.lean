import Verif.Props.Hybrid
import Verif.Props.Slab
import Verif.Props.Reflect
import Verif.Props.Within
import Verif.Props.MultiGroup
import Verif.Props.Tools
import Verif.Props.Broadcast
import Verif.Props.Collect
import Verif.Props.Dmd
import Verif.Props.Timed
import Verif.Props.HybridTime
import Verif.Props.Existence
import Verif.Props.Critical
import Verif.Props.MlSource
import Verif.Props.Sphere
import Verif.Props.OneMoment
import Verif.Props.Aniso
import Verif.Props.ZeroD
import Verif.Props.Setup
import Verif.Props.Setup2
import Verif.Props.Interrupt
import Verif.Props.MlTools
import Verif.Props.Datasets
import Verif.Props.Train
import Verif.Props.FileNames
import Verif.Props.Cram
import Verif.Props.Manufactured
import Verif.Props.Drivers
import Verif.Props.Stability
import Verif.Props.Similar
import Verif.Props.Symmetry
import Verif.Props.SphereScatter
import Verif.Props.Predict
import Verif.Props.Auto
import Verif.Props.Compare
import Verif.Props.Eigen
import Verif.Props.Details
import Verif.Props.DmdDriver
import Verif.Props.Variable
import Verif.Props.Converge
import Verif.Props.SpaceOrder
import Verif.Props.Superpose
import Verif.Props.HybridCalls
import Verif.Props.DmdExact
import Verif.Props.Splits
import Verif.Props.Tune
import Verif.Props.Energy
import Verif.Props.EnergyTime
import Verif.Props.Ambe
import Verif.Props.Resume
import Verif.Props.HybridPositive
import Verif.Props.MlIterate
import Verif.Props.AnisoEnergy
import Verif.Props.Trainer
import Verif.Props.Adjoint
import Verif.Props.KeffMono
import Verif.Props.Access
import Verif.Props.Perron
import Verif.Props.HybridOrder
import Verif.Props.HybridOrder2
import Verif.Props.Rounding
import Verif.Props.HybridExact
import Verif.Props.Tuner
import Verif.Props.RoundedDrivers
import Verif.Props.RoundedKeff
import Verif.Props.Subcritical
import Verif.Props.Relax
import Verif.Props.Geometry
import Verif.Props.SphereSign
import Verif.Props.FineSharp
import Verif.Props.Causal
import Verif.Props.SphereSolve
import Verif.Props.SphereEigen
import Verif.Props.HybridKeff
import Verif.Props.DmdModes
import Verif.Props.ZeroKeff
import Verif.Props.Files
import Verif.Props.Wrappers
import Verif.Props.Decay
import Verif.Props.Cleaning
import Verif.Props.Uniform
import Verif.Props.SpaceTime
import Verif.Props.SpaceAny
import Verif.Props.Warnings
import Verif.Props.HybridSpace
import Verif.Props.RoundedTime
import Verif.Props.Perturb
import Verif.Props.KeffData
import Verif.Props.FirstFlight
import Verif.Props.Certificate

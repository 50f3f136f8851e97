import Verif.Props.Util
import Verif.Props.Sparse
import Verif.Props.Circuit
import Verif.Props.Tpoly
import Verif.Props.Trace
import Verif.Props.Revdot
import Verif.Props.Linexp
import Verif.Props.Gadget
import Verif.Props.Point
import Verif.Props.Endoscalar
import Verif.Props.Sponge
import Verif.Props.Msm
import Verif.Props.Fft
import Verif.Props.Registry
import Verif.Props.RegistryClaim
import Verif.Props.Staging
import Verif.Props.Uendo
import Verif.Props.FixedVec
import Verif.Props.Header
import Verif.Props.Step
import Verif.Props.App
import Verif.Props.Fold
import Verif.Props.Claims
import Verif.Props.Tracked
import Verif.Props.Unified
import Verif.Props.Verify
import Verif.Props.Endoscale
import Verif.Props.Txz
import Verif.Props.ComputeV
import Verif.Props.Quotient
import Verif.Props.History
import Verif.Props.Internal
import Verif.Props.MultiStage
import Verif.Props.Realize
import Verif.Props.Stages
import Verif.Props.Accept
import Verif.Props.Reject
import Verif.Props.Size
import Verif.Props.Complete
import Verif.Props.Pasta
import Verif.Props.Build
import Verif.Props.FuseProgram
import Verif.Props.NestedAccept
import Verif.Props.Tree
import Verif.Props.Fingerprint
import Verif.Props.Witness
import Verif.Props.Recursion
import Verif.Props.RecursionHonest
import Verif.Props.Derivation
import Verif.Props.DerivationHonest
import Verif.Props.Simulate
import Verif.Props.Blinding
import Verif.Props.Binding
import Verif.Props.Tied
import Verif.Props.Oracle
import Verif.Props.Knowledge
import Verif.Props.Nontrivial
import Verif.Props.Testing
import Verif.Props.MaskCircuit
import Verif.Props.ProofSize
import Verif.Props.Bridged
import Verif.Props.Maybe
import Verif.Props.Macros
import Verif.Props.Write
import Verif.Props.WriteHeader
import Verif.Props.CratePath
import Verif.Props.WitnessGadget
import Verif.Props.UnifiedOrder
import Verif.Props.PointEndo

import Verif.Props.Options
import Verif.Props.Inputs
import Verif.Props.Access
import Verif.Props.Cache
import Verif.Props.Beam
import Verif.Props.Geometry
import Verif.Props.Scaling
import Verif.Props.Utau
import Verif.Props.Derivs
import Verif.Props.Adding
import Verif.Props.Doubling
import Verif.Props.NoScatter
import Verif.Props.Radiance
import Verif.Props.AATree
import Verif.Props.SaveTree
import Verif.Props.Alloc
import Verif.Props.Names
import Verif.Props.Work
import Verif.Props.Stacks
import Verif.Props.Fourier
import Verif.Props.Single
import Verif.Props.Solution2
import Verif.Props.Resources
import Verif.Model.Adjoint
import Verif.Model.AdjointU
import Verif.Spec.Adjoint
import Verif.Proof.Adjoint
import Verif.Proof.AdjointRun
import Verif.Proof.AdjointTotal
import Verif.Props.Adjoint
import Verif.Model.Loops
import Verif.Model.Boundary
import Verif.Spec.Boundary
import Verif.Proof.Boundary
import Verif.Props.Boundary
import Verif.Model.Brdf
import Verif.Spec.Brdf
import Verif.Proof.Brdf
import Verif.Props.Brdf
import Verif.Model.FiniteDiff
import Verif.Spec.FiniteDiff
import Verif.Proof.FiniteDiff
import Verif.Props.FiniteDiff
import Verif.Model.Legendre
import Verif.Spec.Legendre
import Verif.Proof.LegendreMath
import Verif.Proof.Legendre
import Verif.Props.Legendre
import Verif.Model.Source
import Verif.Spec.Transfer
import Verif.Proof.Source
import Verif.Proof.SourceD
import Verif.Props.Source
import Verif.Model.Eig
import Verif.Proof.Eig
import Verif.Proof.EigD
import Verif.Props.Eig
import Verif.Model.Bvp
import Verif.Spec.Stack
import Verif.Proof.Bvp
import Verif.Proof.BvpRows
import Verif.Proof.BvpModes
import Verif.Proof.BvpStack
import Verif.Proof.BvpD
import Verif.Proof.BvpSing
import Verif.Props.Bvp
import Verif.Model.Whole
import Verif.Proof.Whole
import Verif.Props.Whole
import Verif.Model.Sos
import Verif.Spec.Orders
import Verif.Proof.Sos
import Verif.Proof.SosRun
import Verif.Proof.SosDeriv
import Verif.Props.Sos
import Verif.Model.PhaseVec
import Verif.Spec.PhaseVec
import Verif.Proof.PhaseVecMath
import Verif.Proof.PhaseVec
import Verif.Proof.PhaseVecSum
import Verif.Proof.PhaseVecAdd
import Verif.Proof.PhaseVecFull
import Verif.Props.PhaseVec
import Verif.Model.TwoStream
import Verif.Spec.TwoStream
import Verif.Proof.TwoStream
import Verif.Proof.TwoStreamSing
import Verif.Proof.TwoStreamD
import Verif.Proof.TwoStreamI
import Verif.Proof.TwoStreamP
import Verif.Props.TwoStream
import Verif.Model.Sfi
import Verif.Spec.View
import Verif.Proof.View
import Verif.Proof.SfiSweep
import Verif.Proof.Sfi
import Verif.Proof.SfiAir
import Verif.Proof.SfiSeen
import Verif.Proof.SfiD
import Verif.Props.Sfi
import Verif.Model.MemBvp
import Verif.Proof.MemBvp
import Verif.Proof.MemBvpLight
import Verif.Proof.MemBvpStack
import Verif.Proof.MemBvpSame
import Verif.Proof.MemBvpD
import Verif.Props.MemBvp
import Verif.Model.TwoOs
import Verif.Proof.TwoOs
import Verif.Proof.TwoOsD
import Verif.Props.TwoOs
import Verif.Model.Pade
import Verif.Proof.PadeA
import Verif.Proof.PadeB
import Verif.Proof.PadeC
import Verif.Proof.PadeD
import Verif.Props.Pade
import Verif.Model.Streams
import Verif.Spec.Streams
import Verif.Spec.Loss
import Verif.Proof.Streams
import Verif.Proof.StreamsP
import Verif.Proof.StreamsK
import Verif.Proof.StreamsL
import Verif.Proof.StreamsT
import Verif.Proof.StreamsV
import Verif.Proof.StreamsX
import Verif.Proof.Loss
import Verif.Props.Streams
import Verif.Proof.Tame
import Verif.Proof.TameL
import Verif.Props.Loss
import Verif.Spec.Quad
import Verif.Model.Gauss
import Verif.Proof.GaussMath
import Verif.Proof.Gauss
import Verif.Props.Gauss
import Verif.Spec.Phase
import Verif.Proof.Phase
import Verif.Proof.PhaseEig
import Verif.Props.Phase
import Verif.Model.BvpCall
import Verif.Props.BvpCall
import Verif.Model.Clear
import Verif.Proof.Clear
import Verif.Props.Clear
import Verif.Model.SingleA
import Verif.Spec.SingleA
import Verif.Proof.SingleA
import Verif.Props.SingleA
import Verif.Model.AdjointS
import Verif.Spec.AdjointS
import Verif.Proof.AdjointS
import Verif.Props.AdjointS
import Verif.Model.EigA
import Verif.Proof.EigA
import Verif.Props.EigA
import Verif.Model.EigRounds
import Verif.Proof.EigRounds
import Verif.Props.EigRounds
import Verif.Props.EigPol
import Verif.Model.Rules
import Verif.Proof.Rules
import Verif.Props.Rules
import Verif.Model.Peak
import Verif.Spec.Peak
import Verif.Props.Peak

import Verif.Spec.Contracts
import Verif.Model.Res
import Verif.Model.Traits
import Verif.Model.Integers
import Verif.Model.Naturals
import Verif.Model.CheckedInts
import Verif.Model.CheckedUints
import Verif.Model.QuotientRing
import Verif.Model.QuotientField
import Verif.Model.ReducedFractions
import Verif.Model.DivisibilityOrder
import Verif.Model.AdditiveGroup
import Verif.Model.MultiplicativeGroup
import Verif.Model.TwoElementAlgebra
import Verif.Model.VectorAlgebra
import Verif.Model.PolynomialAlgebra
import Verif.Model.MatrixRing
import Verif.Model.Permutations
import Verif.Proofs.Basic
import Verif.Proofs.Field
import Verif.Proofs.Integers
import Verif.Proofs.CheckedInts
import Verif.Proofs.CheckedGcd
import Verif.Proofs.CheckedTimes
import Verif.Props.Integers
import Verif.Spec.Division
import Verif.Spec.Machine
import Verif.Spec.DivisionOverflow
import Verif.Proofs.Euclid
import Verif.Proofs.Groups
import Verif.Proofs.CheckedRefines
import Verif.Props.Traits
import Verif.Props.CheckedInts
import Verif.Props.Groups
import Verif.Spec.Quotient
import Verif.Proofs.Quotient
import Verif.Proofs.QuotientInts
import Verif.Props.Quotient
import Verif.Spec.Fractions
import Verif.Proofs.Fractions
import Verif.Props.Fractions
import Verif.Spec.Polynomials
import Verif.Proofs.Lists
import Verif.Proofs.PolyGroup
import Verif.Proofs.PolyRing
import Verif.Proofs.PolyDiv
import Verif.Props.Polynomials
import Verif.Spec.Vectors
import Verif.Proofs.Vectors
import Verif.Props.Vectors
import Verif.Spec.Matrices
import Verif.Proofs.Matrices
import Verif.Proofs.MatrixRing
import Verif.Proofs.DetSign
import Verif.Proofs.MatrixElim
import Verif.Props.Matrices
import Verif.Spec.Permutations
import Verif.Proofs.Permutations
import Verif.Props.Permutations
import Verif.Spec.Divisibility
import Verif.Proofs.Divisibility
import Verif.Props.Divisibility
import Verif.Spec.InPlace
import Verif.Proofs.InPlace
import Verif.Props.InPlace
import Verif.Model.Ieee
import Verif.Model.ApproxFloats
import Verif.Spec.Floats
import Verif.Proofs.Floats
import Verif.Props.Floats
import Verif.Props.FloatFormats
import Verif.Proofs.PolyOf
import Verif.Props.FiniteFields
import Verif.Props.Instances
import Verif.Props.Unreduced
import Verif.Props.Counting
import Verif.Spec.Cost
import Verif.Proofs.Cost
import Verif.Props.Cost
import Verif.Replay
import Verif.Spec.Laws
import Verif.Proofs.Laws
import Verif.Proofs.LawsConverse
import Verif.Props.Laws
import Verif.Proofs.NoOverflow
import Verif.Proofs.DivisionOverflow
import Verif.Props.NoOverflow
import Verif.Props.DivisionOverflow
import Verif.Props.MatrixOverflow
import Verif.Props.PolyFractionOverflow
import Verif.Props.DeterminantOverflow
import Verif.Props.NonPermutations
import Verif.Spec.Simulation
import Verif.Proofs.Simulation
import Verif.Proofs.SimTraits
import Verif.Proofs.SimWrappers
import Verif.Proofs.SimVector
import Verif.Proofs.SimPoly
import Verif.Proofs.SimMatrix
import Verif.Proofs.SimBase
import Verif.Props.Simulation
import Verif.Proofs.EuclidExact
import Verif.Proofs.CheckedExact
import Verif.Props.EuclidExact
import Verif.Proofs.PolyCoef
import Verif.Props.Coefficients
import Verif.Proofs.FloatError
import Verif.Proofs.FloatDot
import Verif.Props.FloatError
import Verif.Spec.Termination
import Verif.Proofs.Termination
import Verif.Proofs.TermStruct
import Verif.Proofs.TermBase
import Verif.Props.Termination
import Verif.Props.NonFinite
import Verif.Spec.ExactFloats
import Verif.Proofs.ExactFloats
import Verif.Props.ExactFloats
import Verif.Proofs.PolyGcd
import Verif.Props.PolyGcd
import Verif.Props.FinitePowers
import Verif.Spec.Order
import Verif.Proofs.Order
import Verif.Proofs.OrderPoly
import Verif.Proofs.OrderDiv
import Verif.Proofs.OrderPower
import Verif.Proofs.OrderElim
import Verif.Props.Order
import Verif.Spec.Coordinates
import Verif.Proofs.Coordinates
import Verif.Proofs.CoordinatesPoly
import Verif.Props.Coordinates
import Verif.Props.Towers
import Verif.Spec.Defaults
import Verif.Proofs.Overrides
import Verif.Proofs.OverrideSpecs
import Verif.Props.Overrides
import Verif.Spec.Agreement
import Verif.Proofs.Agreement
import Verif.Props.Agreement
import Verif.Spec.Signs
import Verif.Proofs.Graded
import Verif.Proofs.Signs
import Verif.Props.Signs
import Verif.Spec.Majorants
import Verif.Proofs.Majorants
import Verif.Props.Majorants
import Verif.Spec.FloatIntegers
import Verif.Proofs.FloatExact
import Verif.Props.FloatExact
import Verif.Spec.Embeddings
import Verif.Proofs.Embeddings
import Verif.Proofs.BlockMatrices
import Verif.Props.Embeddings
import Verif.Spec.FloatFractions
import Verif.Proofs.FloatEuclid
import Verif.Props.FloatEuclid
import Verif.Proofs.Pivots
import Verif.Props.Pivots
import Verif.Spec.Generated
import Verif.Proofs.Generated
import Verif.Props.Generated
import Verif.Model.Mutation
import Verif.Spec.Mutation
import Verif.Proofs.Mutation
import Verif.Props.Mutation
import Verif.Model.Counted
import Verif.Spec.Counted
import Verif.Proofs.Counted
import Verif.Proofs.CountedErase
import Verif.Proofs.CountedTakes
import Verif.Props.Counted
import Verif.Model.Usize
import Verif.Spec.Usize
import Verif.Proofs.Usize
import Verif.Props.Usize
import Verif.Model.Stateful
import Verif.Model.StatefulVectors
import Verif.Model.StatefulPolynomials
import Verif.Model.StatefulResidues
import Verif.Spec.Stateful
import Verif.Proofs.Stateful
import Verif.Proofs.StatefulTraits
import Verif.Proofs.StatefulVector
import Verif.Proofs.StatefulMatrix
import Verif.Proofs.StatefulPoly
import Verif.Proofs.StatefulWrappers
import Verif.Props.Stateful
import Verif.Spec.Lawless
import Verif.Proofs.Lawless
import Verif.Proofs.LawlessVector
import Verif.Proofs.LawlessMatrix
import Verif.Proofs.LawlessPoly
import Verif.Proofs.LawlessWrappers
import Verif.Props.Lawless
import Verif.Spec.Clients
import Verif.Proofs.Clients
import Verif.Props.Clients
import Verif.Model.CountedResidues
import Verif.Spec.Charges
import Verif.Spec.ResidueCosts
import Verif.Proofs.CountedResidues
import Verif.Proofs.Charges
import Verif.Proofs.ChargesMatrix
import Verif.Proofs.ChargesPoly
import Verif.Proofs.ResidueCosts
import Verif.Proofs.ChargesTower
import Verif.Props.Charges
import Verif.Spec.EuclidClients
import Verif.Proofs.EuclidClients
import Verif.Props.EuclidClients
import Verif.Props.Cases
import Verif.Spec.Crout
import Verif.Proofs.Crout
import Verif.Proofs.CroutFloats
import Verif.Props.Crout
import Verif.Props.Cases2
import Verif.Spec.FloatDivision
import Verif.Proofs.FloatDivision
import Verif.Props.FloatDivision
import Verif.Model.Shared
import Verif.Spec.Shared
import Verif.Spec.Minors
import Verif.Proofs.Minors
import Verif.Proofs.Shared
import Verif.Props.Shared
import Verif.Props.Cases3
import Verif.Spec.Guarded
import Verif.Proofs.Guarded
import Verif.Props.Guarded
import Verif.Spec.FractionTime
import Verif.Props.FractionTime
import Verif.Spec.Outcomes
import Verif.Props.GuardedOutcomes
import Verif.Spec.Workspace
import Verif.Props.Workspace
import Verif.Spec.DomainWorkspace
import Verif.Props.DomainWorkspace
import Verif.Spec.Threads
import Verif.Props.Threads
import Verif.Spec.InPlaceClients
import Verif.Props.InPlaceClients
import Verif.Props.Triangular

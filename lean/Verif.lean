import Verif.Props.Mesh
import Verif.Props.Boundary
import Verif.Props.MeshIndices
import Verif.Props.BoundaryIndices
import Verif.Props.Normals
import Verif.Props.Dirichlet
import Verif.Props.DirichletNames
import Verif.Props.Layout
import Verif.Props.Schur
import Verif.Props.Statement
import Verif.Props.Registry
import Verif.Props.Solvers
import Verif.Props.Piezo
import Verif.Props.Gradients
import Verif.Props.MassStiffness
import Verif.Props.Elasticity
import Verif.Props.Thermal
import Verif.Props.Density
import Verif.Props.Forces
import Verif.Props.Tensors
import Verif.Model.State
import Verif.Model.Running
import Verif.Spec.Running
import Verif.Lemmas.Running
import Verif.Props.Clock
import Verif.Props.Restart
import Verif.Props.Coupled
import Verif.Props.Forcing
import Verif.Spec.State
import Verif.Props.State
import Verif.Model.StateHeap
import Verif.Spec.StateHeap
import Verif.Props.Copies
import Verif.Model.ContactLaws
import Verif.Model.Cost
import Verif.Spec.Cost
import Verif.Lemmas.Cost
import Verif.Lemmas.Subgradient
import Verif.Props.ContactLaws
import Verif.Props.Cost
import Verif.Props.Methods
import Verif.Props.Subgradient
import Verif.Model.Products
import Verif.Spec.Products
import Verif.Lemmas.Zeros
import Verif.Props.Products
import Verif.Model.MeshZoo
import Verif.Spec.MeshZoo
import Verif.Lemmas.MeshZoo
import Verif.Props.MeshZoo
import Verif.Model.HardcodedMeshes
import Verif.Lemmas.Tetrahedra
import Verif.Props.HardcodedMeshes
import Verif.Props.BallMesh
import Verif.Props.BallDisjoint
import Verif.Props.SpaceStatic
import Verif.Props.SpaceContact
import Verif.Props.SpaceMotions
import Verif.Props.SpaceRuns
import Verif.Model.Operators
import Verif.Spec.Operators
import Verif.Props.Operators
import Verif.Model.Config
import Verif.Props.Config
import Verif.Spec.Energy
import Verif.Lemmas.Energy
import Verif.Props.Energy
import Verif.Props.Balance
import Verif.Spec.Solvable
import Verif.Spec.SpaceStatic
import Verif.Props.Solvable
import Verif.Model.Minimise
import Verif.Spec.Minimise
import Verif.Props.Minimise
import Verif.Props.Static
import Verif.Props.MassProduct
import Verif.Model.Simulations
import Verif.Model.Sources
import Verif.Spec.Simulations
import Verif.Props.Simulations
import Verif.Props.Sources
import Verif.Model.Plotting
import Verif.Model.Sections
import Verif.Props.Plotting
import Verif.Props.Sections
import Verif.Spec.Patch
import Verif.Lemmas.Patch
import Verif.Props.Patch
import Verif.Spec.CrossBoundary
import Verif.Lemmas.CrossBoundary
import Verif.Props.CrossBoundary
import Verif.Props.BoundaryCounts
import Verif.Spec.Interior
import Verif.Props.Interior
import Verif.Spec.ContactSolution
import Verif.Lemmas.Coercive
import Verif.Props.ContactSolution
import Verif.Spec.Invariance
import Verif.Spec.Carried
import Verif.Spec.Units
import Verif.Lemmas.Invariance
import Verif.Props.Invariance
import Verif.Model.Recovery
import Verif.Spec.Recovery
import Verif.Props.Recovery
import Verif.Model.MeshGeometry
import Verif.Spec.MeshGeometry
import Verif.Props.MeshGeometry
import Verif.Spec.HeatCharge
import Verif.Lemmas.CoupledRun
import Verif.Props.HeatCharge
import Verif.Model.ExampleLaws
import Verif.Spec.ExampleLaws
import Verif.Props.ExampleLaws
import Verif.Model.Manufactured
import Verif.Spec.Manufactured
import Verif.Props.Manufactured
import Verif.Spec.Maximum
import Verif.Props.Maximum
import Verif.Spec.Superposition
import Verif.Props.Superposition
import Verif.Model.SavedResults
import Verif.Spec.SavedResults
import Verif.Props.SavedResults
import Verif.Spec.Reactions
import Verif.Props.Reactions
import Verif.Spec.Sides
import Verif.Lemmas.Sides
import Verif.Props.Sides
import Verif.Props.SplitLaws
import Verif.Spec.Refinement
import Verif.Spec.NestedMeshes
import Verif.Lemmas.CrossRefinement
import Verif.Props.Refinement
import Verif.Props.NestedMeshes
import Verif.Props.HeldRectangles
import Verif.Spec.Motion
import Verif.Spec.Creep
import Verif.Spec.Rest
import Verif.Lemmas.Motion
import Verif.Lemmas.Ode
import Verif.Lemmas.MotionExists
import Verif.Props.Convergence
import Verif.Props.Motions
import Verif.Props.Creep
import Verif.Props.CreepBody
import Verif.Props.Rest
import Verif.Spec.Integrals
import Verif.Lemmas.Integrals
import Verif.Lemmas.Green
import Verif.Props.Integrals
import Verif.Props.RectangleIntegrals
import Verif.Spec.Flow
import Verif.Lemmas.Flow
import Verif.Lemmas.Interpolation
import Verif.Props.Approximation
import Verif.Props.ElasticApproximation
import Verif.Props.RectangleApproximation
import Verif.Model.OptimisedStep
import Verif.Spec.ContactSteps
import Verif.Lemmas.FreeBlock
import Verif.Props.ContactSteps
import Verif.Props.ContactMotions
import Verif.Spec.SolverIndependence
import Verif.Props.SolverIndependence
import Verif.Model.DirectStep
import Verif.Spec.DirectStep
import Verif.Props.DirectStep
import Verif.Model.Constrained
import Verif.Spec.StiffLimit
import Verif.Lemmas.Penalty
import Verif.Lemmas.Obstacle
import Verif.Lemmas.Least
import Verif.Props.StiffLimit
import Verif.Props.StiffRuns
import Verif.Props.StiffExamples
import Verif.Spec.Relaxing
import Verif.Lemmas.Relaxing
import Verif.Props.Relaxing
import Verif.Props.RelaxationClock
import Verif.Props.FadingMemory
import Verif.Spec.Thermoelastic
import Verif.Lemmas.Monotone
import Verif.Lemmas.Thermoelastic
import Verif.Lemmas.ThermalBlock
import Verif.Lemmas.ThermalMotion
import Verif.Lemmas.ThermalStep
import Verif.Props.ThermalRuns
import Verif.Spec.Piezoelectric
import Verif.Lemmas.Piezoelectric
import Verif.Lemmas.PiezoStep
import Verif.Lemmas.PiezoError
import Verif.Props.PiezoRuns
import Verif.Props.CoupledMethods
import Verif.Props.CoupledBodies
import Verif.Props.CoupledIndependence
import Verif.Model.ConvergenceTable
import Verif.Props.ConvergenceTable
import Verif.Props.SpaceWaves
import Verif.Spec.Modes
import Verif.Lemmas.Modes
import Verif.Props.Modes
import Verif.Props.CreepModes
import Verif.Props.HeatModes
import Verif.Props.CarriedRuns
import Verif.Props.CarriedStatic
import Verif.Props.Units
import Verif.Props.UnitsStatic

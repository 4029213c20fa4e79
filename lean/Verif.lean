import Verif.Props.Termination
import Verif.Props.Exports
import Verif.Props.Materials
import Verif.Props.TypedList
import Verif.Props.TypedHeap
import Verif.Props.Fields
import Verif.Props.Balance
import Verif.Props.BalanceCases
import Verif.Props.Traps
import Verif.Props.Diffusion
import Verif.Props.Theta
import Verif.Props.ThetaCases
import Verif.Props.Temperature
import Verif.Props.Registry
import Verif.Props.Heat
import Verif.Props.Decay
import Verif.Props.Derived
import Verif.Props.SurfaceFlux
import Verif.Model.Simulation
import Verif.Spec.Simulation
import Verif.Proofs.Simulation
import Verif.Props.Simulation
import Verif.Model.Setters
import Verif.Spec.Setters
import Verif.Props.Setters
import Verif.Props.BareQuantity
import Verif.Model.Units
import Verif.Spec.Units
import Verif.Props.Units
import Verif.Props.Bounds
import Verif.Props.TrapElements
import Verif.Props.Inventory
import Verif.Model.Titles
import Verif.Spec.Titles
import Verif.Props.Titles
import Verif.Model.Filter
import Verif.Spec.Filter
import Verif.Props.Filter
import Verif.Model.Floats
import Verif.Spec.Floats
import Verif.Proofs.Floats
import Verif.Props.Floats
import Verif.Model.Implantation
import Verif.Props.Gas
import Verif.Props.Implantation
import Verif.Model.Coupled
import Verif.Props.Coupled
import Verif.Model.Files
import Verif.Props.Files
import Verif.Model.TrapMaterials
import Verif.Props.TrapMaterials
import Verif.Model.TrapDensity
import Verif.Props.TrapDensity
import Verif.Model.Xdmf
import Verif.Props.Xdmf
import Verif.Model.Helpers
import Verif.Props.Helpers
import Verif.Props.Permeation
import Verif.Proofs.Lines
import Verif.Props.Existence
import Verif.Props.Relaxation
import Verif.Model.Continue
import Verif.Props.Continue
import Verif.Props.CoordBalance
import Verif.Model.Warnings
import Verif.Props.Unused
import Verif.Model.Newton
import Verif.Props.Newton
import Verif.Model.Solve
import Verif.Props.Solve
import Verif.Props.SolveLine
import Verif.Model.Closed
import Verif.Props.Closed
import Verif.Model.MeshTypes
import Verif.Props.MeshTypes
import Verif.Model.TrapParams
import Verif.Props.TrapParams
import Verif.Model.Reinit
import Verif.Props.Reinit
import Verif.Model.Space
import Verif.Spec.Space
import Verif.Proofs.Space
import Verif.Proofs.SmallStep
import Verif.Props.SmallStep
import Verif.Spec.Accuracy
import Verif.Proofs.Accuracy
import Verif.Proofs.Accepted
import Verif.Props.Accuracy
import Verif.Spec.Trapping
import Verif.Proofs.TrapAccuracy
import Verif.Props.TrapAccuracy
import Verif.Spec.SteadyAccuracy
import Verif.Proofs.SteadyAccuracy
import Verif.Props.SteadyAccuracy
import Verif.Spec.Varying
import Verif.Proofs.Varying
import Verif.Props.Varying
import Verif.Props.AnyDimension
import Verif.Instances.Traps
import Verif.Instances.Balance
import Verif.Instances.Theta
import Verif.Instances.Exports
import Verif.Instances.Control
import Verif.Instances.Setters
import Verif.Instances.Derived
import Verif.Props.Invariance
import Verif.Props.Symmetry
import Verif.Props.Slab
import Verif.Props.Superposition
import Verif.Props.Revolution
import Verif.Props.Sources
import Verif.Spec.SteadyTraps
import Verif.Proofs.SteadyTraps
import Verif.Props.SteadyTraps
import Verif.Spec.ReportedBalance
import Verif.Props.ReportedBalance
import Verif.Proofs.Alternate
import Verif.Props.EmptyTraps
import Verif.Spec.Tube
import Verif.Props.Tube
import Verif.Props.TimeLag
import Verif.Props.Desorption
import Verif.Props.Kinetics
import Verif.Props.TrapKeywords
import Verif.Props.HeatReport
import Verif.Props.SurfaceKinetics
import Verif.Spec.SurfaceKinetics
import Verif.Proofs.MonotoneEnds
import Verif.Props.KineticsSolution
import Verif.Props.Recombination
import Verif.Props.Outgassing
import Verif.Props.SurfaceLimited
import Verif.Props.Radiation
import Verif.Props.TrapOutgassing
import Verif.Props.OutgasAnyDim
import Verif.Props.TrapUnique

import Verif.Lemmas.Adjoint
import Verif.Lemmas.Backward
import Verif.Lemmas.CMake
import Verif.Lemmas.Canon
import Verif.Lemmas.Constr
import Verif.Lemmas.Defaults
import Verif.Lemmas.Deltas
import Verif.Lemmas.DeltasB
import Verif.Lemmas.Empty
import Verif.Lemmas.ExPipe
import Verif.Lemmas.Explicit
import Verif.Lemmas.ExplicitB
import Verif.Lemmas.ExplicitC
import Verif.Lemmas.ExplicitD
import Verif.Lemmas.Factor
import Verif.Lemmas.Files
import Verif.Lemmas.FilesB
import Verif.Lemmas.FilesC
import Verif.Lemmas.Flatten
import Verif.Lemmas.GradAdd
import Verif.Lemmas.GradArr
import Verif.Lemmas.GradCall
import Verif.Lemmas.GradEdit
import Verif.Lemmas.GradFactor
import Verif.Lemmas.GradFlow
import Verif.Lemmas.GradHist
import Verif.Lemmas.GradMem
import Verif.Lemmas.GradMemB
import Verif.Lemmas.GradMemC
import Verif.Lemmas.GradMemD
import Verif.Lemmas.GradMemE
import Verif.Lemmas.GradMemF
import Verif.Lemmas.GradMemG
import Verif.Lemmas.GradPipe
import Verif.Lemmas.GradRef
import Verif.Lemmas.GradRefB
import Verif.Lemmas.GradRefC
import Verif.Lemmas.GradRefD
import Verif.Lemmas.GradRefE
import Verif.Lemmas.GradRefF
import Verif.Lemmas.GradRefG
import Verif.Lemmas.GradRefH
import Verif.Lemmas.GradRefI
import Verif.Lemmas.GradSolve
import Verif.Lemmas.Index
import Verif.Lemmas.Kkt
import Verif.Lemmas.KktHist
import Verif.Lemmas.KktInit
import Verif.Lemmas.Ldl
import Verif.Lemmas.Merge
import Verif.Lemmas.Pipeline
import Verif.Lemmas.Pivots
import Verif.Lemmas.Printed
import Verif.Lemmas.PyModule
import Verif.Lemmas.Refine
import Verif.Lemmas.Register
import Verif.Lemmas.Retrieve
import Verif.Lemmas.Rounded
import Verif.Lemmas.RoundedGrad
import Verif.Lemmas.Runtime
import Verif.Lemmas.Shared
import Verif.Lemmas.Sparse
import Verif.Lemmas.StaticTables
import Verif.Lemmas.Symbols
import Verif.Lemmas.SymbolsB
import Verif.Lemmas.SymbolsC
import Verif.Lemmas.Text
import Verif.Lemmas.Threads
import Verif.Lemmas.Trace
import Verif.Lemmas.Uncanon
import Verif.Lemmas.UpdateStructure
import Verif.Lemmas.Wrapper
import Verif.Model.Again
import Verif.Model.Assign
import Verif.Model.Backward
import Verif.Model.Build
import Verif.Model.CMake
import Verif.Model.Canon
import Verif.Model.Cones
import Verif.Model.Defaults
import Verif.Model.DeltaIndex
import Verif.Model.Deltas
import Verif.Model.Dispatch
import Verif.Model.Empty
import Verif.Model.Enable
import Verif.Model.ExGrad
import Verif.Model.ExMem
import Verif.Model.ExPipe
import Verif.Model.Example
import Verif.Model.Explicit
import Verif.Model.Factor
import Verif.Model.Files
import Verif.Model.Flatten
import Verif.Model.GradArr
import Verif.Model.GradFactor
import Verif.Model.GradFlow
import Verif.Model.GradMem
import Verif.Model.GradPipe
import Verif.Model.Gradient
import Verif.Model.Holders
import Verif.Model.Includes
import Verif.Model.Index
import Verif.Model.Kinds
import Verif.Model.Layers
import Verif.Model.LayersArr
import Verif.Model.LayersG
import Verif.Model.Limits
import Verif.Model.Link
import Verif.Model.Memory
import Verif.Model.Merge
import Verif.Model.Methods
import Verif.Model.Options
import Verif.Model.Outcome
import Verif.Model.Pipeline
import Verif.Model.Precond
import Verif.Model.Printed
import Verif.Model.Py
import Verif.Model.PyModule
import Verif.Model.Quad
import Verif.Model.Readme
import Verif.Model.Register
import Verif.Model.Requests
import Verif.Model.Retrieve
import Verif.Model.Rounded
import Verif.Model.RoundedGrad
import Verif.Model.Runtime
import Verif.Model.Saved
import Verif.Model.Settings
import Verif.Model.Shared
import Verif.Model.SolverTables
import Verif.Model.Sparse
import Verif.Model.Stored
import Verif.Model.Structs
import Verif.Model.Symbols
import Verif.Model.Text
import Verif.Model.Threads
import Verif.Model.TwoRet
import Verif.Model.Uncanon
import Verif.Model.UpdateStructure
import Verif.Model.Wrapper
import Verif.Props.Again
import Verif.Props.Assign
import Verif.Props.Backward
import Verif.Props.Build
import Verif.Props.CMake
import Verif.Props.Canon
import Verif.Props.CanonSize
import Verif.Props.Cones
import Verif.Props.DeltaIndex
import Verif.Props.Deltas
import Verif.Props.Dispatch
import Verif.Props.Empty
import Verif.Props.Enable
import Verif.Props.ExClamp
import Verif.Props.ExGrad
import Verif.Props.ExMem
import Verif.Props.ExObj
import Verif.Props.ExPipe
import Verif.Props.Exact
import Verif.Props.ExactB
import Verif.Props.ExactC
import Verif.Props.ExactD
import Verif.Props.ExactE
import Verif.Props.ExactF
import Verif.Props.ExactG
import Verif.Props.ExactH
import Verif.Props.ExactI
import Verif.Props.ExactJ
import Verif.Props.ExactK
import Verif.Props.ExactL
import Verif.Props.ExactM
import Verif.Props.ExactN
import Verif.Props.ExactO
import Verif.Props.ExactP
import Verif.Props.ExactQ
import Verif.Props.ExactR
import Verif.Props.ExactS
import Verif.Props.ExactT
import Verif.Props.ExactU
import Verif.Props.ExactV
import Verif.Props.ExactW
import Verif.Props.ExactX
import Verif.Props.ExactY
import Verif.Props.ExactZ
import Verif.Props.Example
import Verif.Props.Explicit
import Verif.Props.Factor
import Verif.Props.Failed
import Verif.Props.Files
import Verif.Props.Flatten
import Verif.Props.Forms
import Verif.Props.GradArr
import Verif.Props.GradFlow
import Verif.Props.GradHist
import Verif.Props.GradMem
import Verif.Props.GradPipe
import Verif.Props.GradRef
import Verif.Props.GradSign
import Verif.Props.Holders
import Verif.Props.Includes
import Verif.Props.Index
import Verif.Props.Kinds
import Verif.Props.Kkt
import Verif.Props.Layers
import Verif.Props.LayersArr
import Verif.Props.LayersG
import Verif.Props.Ldl
import Verif.Props.Limits
import Verif.Props.Link
import Verif.Props.Memory
import Verif.Props.Merge
import Verif.Props.Methods
import Verif.Props.Options
import Verif.Props.Outcome
import Verif.Props.Pipeline
import Verif.Props.Precond
import Verif.Props.Printed
import Verif.Props.PyModule
import Verif.Props.Pybind
import Verif.Props.Quad
import Verif.Props.Readme
import Verif.Props.Register
import Verif.Props.Repeat
import Verif.Props.Requests
import Verif.Props.Retrieve
import Verif.Props.Rounded
import Verif.Props.RoundedGrad
import Verif.Props.Saved
import Verif.Props.Settings
import Verif.Props.Shared
import Verif.Props.Stored
import Verif.Props.Structs
import Verif.Props.Symbols
import Verif.Props.SymbolsB
import Verif.Props.Text
import Verif.Props.Threads
import Verif.Props.TwoRet
import Verif.Props.Uncanon
import Verif.Props.UpdateSolve
import Verif.Props.Wrapper
import Verif.Spec.Again
import Verif.Spec.Assign
import Verif.Spec.Backward
import Verif.Spec.Build
import Verif.Spec.CMake
import Verif.Spec.Canonical
import Verif.Spec.Cones
import Verif.Spec.Constr
import Verif.Spec.DeltaIndex
import Verif.Spec.Deltas
import Verif.Spec.Dispatch
import Verif.Spec.Empty
import Verif.Spec.ExClamp
import Verif.Spec.ExGrad
import Verif.Spec.ExPipe
import Verif.Spec.Explicit
import Verif.Spec.Factor
import Verif.Spec.Failed
import Verif.Spec.Files
import Verif.Spec.Flatten
import Verif.Spec.GradArr
import Verif.Spec.GradFactor
import Verif.Spec.GradFlow
import Verif.Spec.GradMem
import Verif.Spec.GradPipe
import Verif.Spec.GradRef
import Verif.Spec.Gradient
import Verif.Spec.Includes
import Verif.Spec.Index
import Verif.Spec.Layers
import Verif.Spec.LayersG
import Verif.Spec.Limits
import Verif.Spec.Linear
import Verif.Spec.Memory
import Verif.Spec.Merge
import Verif.Spec.Methods
import Verif.Spec.Options
import Verif.Spec.Outcome
import Verif.Spec.Pipeline
import Verif.Spec.Precond
import Verif.Spec.Printed
import Verif.Spec.PyModule
import Verif.Spec.Quad
import Verif.Spec.Repeat
import Verif.Spec.Requests
import Verif.Spec.Retrieve
import Verif.Spec.Rounded
import Verif.Spec.Runtime
import Verif.Spec.ScsCalls
import Verif.Spec.Settings
import Verif.Spec.Shared
import Verif.Spec.Symbols
import Verif.Spec.Text
import Verif.Spec.Threads
import Verif.Spec.TwoRet
import Verif.Spec.UpdateStructure
import Verif.Spec.Wrapper

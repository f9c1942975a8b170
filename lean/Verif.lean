import Verif.Model.DD
import Verif.Props.Access
import Verif.Props.Calculus
import Verif.Props.Construct
import Verif.Props.Shape
import Verif.Props.Pad
import Verif.Props.Algebra
import Verif.Props.Renumber
import Verif.Props.Taylor
import Verif.Props.Matrix
import Verif.Props.Python
import Verif.Props.Program
import Verif.Props.Sparse
import Verif.Props.Negative
import Verif.Props.Plain
import Verif.Props.PyHeap
import Verif.Props.PyExact
import Verif.Props.PyApi
import Verif.Props.PySparse
import Verif.Props.Names
import Verif.Props.Error
import Verif.Props.SError
import Verif.Props.Converge
import Verif.Props.ConvergeRun
import Verif.Props.Finite
import Verif.Props.Uniform
import Verif.Props.Watch
import Verif.Props.Caller
import Verif.Props.Threads
import Verif.Props.Newton
import Verif.Props.Objects
import Verif.Props.PyCaller
import Verif.Props.PyExceptions
import Verif.Props.SProgram
import Verif.Props.SPrecise
import Verif.Props.PyPrecise
import Verif.Props.SPyPrecise
import Verif.Props.CallerFinite
import Verif.Props.EvalErr
import Verif.Props.SEvalErr
import Verif.Props.Instances
import Verif.Props.Arrays
import Verif.Props.SThreads
import Verif.Props.Rate
import Verif.Props.Local
import Verif.Props.PyValues
import Verif.Props.Machine
import Verif.Props.Control
import Verif.Props.PyControl
import Verif.Props.SPyControl
import Verif.Props.PyCells
import Verif.Props.SPyCells
import Verif.Props.Mixed
import Verif.Props.InstancesErr
import Verif.Props.Custom
import Verif.Props.Block
import Verif.Props.SBlock
import Verif.Props.SDense
import Verif.Props.Scale
import Verif.Props.SScale
import Verif.Props.Rewrite
import Verif.Props.SRewrite
import Verif.Props.SCustom
import Verif.Props.CustomExact
import Verif.Props.SImplicit
import Verif.Props.NewtonFormats
import Verif.Props.SCustom2
import Verif.Props.SMixed

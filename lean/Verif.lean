import Verif.Model.Basic
import Verif.Model.Lexer
import Verif.Spec.Lexer
import Verif.Spec.Surface
import Verif.Proofs.LexChar
import Verif.Proofs.LexTok
import Verif.Proofs.LexSplit
import Verif.Proofs.LexParse
import Verif.Proofs.LexMain
import Verif.Proofs.Surface
import Verif.Proofs.LexAny
import Verif.Proofs.LexCtx
import Verif.Props.Lexer
import Verif.Model.Conv
import Verif.Spec.Conv
import Verif.Proofs.Numerals
import Verif.Proofs.Conv
import Verif.Props.Conv
import Verif.Model.UMap
import Verif.Spec.Dict
import Verif.Proofs.UMapInv
import Verif.Proofs.UMapInsert
import Verif.Proofs.UMapErase
import Verif.Proofs.UMapRefine
import Verif.Proofs.UMapLoop
import Verif.Props.UMap
import Verif.Model.Vector
import Verif.Spec.Seq
import Verif.Proofs.Vector
import Verif.Proofs.VecProg
import Verif.Props.Vector
import Verif.Model.Exec
import Verif.Spec.Exec
import Verif.Proofs.Exec
import Verif.Props.Exec
import Verif.Spec.Access
import Verif.Proofs.Access
import Verif.Props.Access
import Verif.Proofs.UMapEntries
import Verif.Model.Registry
import Verif.Spec.Registry
import Verif.Proofs.Registry
import Verif.Proofs.Isolation
import Verif.Props.Registry
import Verif.Props.Messages
import Verif.Model.String
import Verif.Spec.Str
import Verif.Proofs.Str
import Verif.Proofs.StrProg
import Verif.Props.String
import Verif.Model.Lifetime
import Verif.Spec.Lifetime
import Verif.Proofs.Lifetime
import Verif.Props.Lifetime
import Verif.Spec.Typed
import Verif.Proofs.Typed
import Verif.Props.Typed
import Verif.Proofs.Replay
import Verif.Props.Replay
import Verif.Proofs.Fuel
import Verif.Props.Recursion
import Verif.Model.Format
import Verif.Proofs.Format
import Verif.Props.Format
import Verif.Props.RawValues
import Verif.Spec.Plain
import Verif.Props.Plain
import Verif.Proofs.UMapSim
import Verif.Props.Links
import Verif.Proofs.UMapLoad
import Verif.Props.Load
import Verif.Model.Functor
import Verif.Spec.Functor
import Verif.Proofs.Functor
import Verif.Props.Functor
import Verif.Model.Names
import Verif.Spec.Names
import Verif.Proofs.Names
import Verif.Props.Names
import Verif.Model.TypeName
import Verif.Proofs.TypeName
import Verif.Props.TypeName
import Verif.Spec.Text
import Verif.Proofs.Text
import Verif.Props.Text
import Verif.Spec.Growth
import Verif.Proofs.Growth
import Verif.Props.Growth
import Verif.Model.Float
import Verif.Spec.Float
import Verif.Proofs.FloatRound
import Verif.Proofs.FloatText
import Verif.Proofs.FloatPrint
import Verif.Proofs.FloatNear
import Verif.Proofs.FloatTrip
import Verif.Props.Float
import Verif.Proofs.FloatStable
import Verif.Props.FloatTrip
import Verif.Model.Assert
import Verif.Model.Checked
import Verif.Model.CheckedLexer
import Verif.Spec.Asserts
import Verif.Proofs.Assert
import Verif.Proofs.Checked
import Verif.Proofs.CheckedLexer
import Verif.Props.Asserts
import Verif.Props.AssertsLexer
import Verif.Model.CheckedVector
import Verif.Proofs.CheckedVector
import Verif.Props.AssertsVector
import Verif.Model.CheckedString
import Verif.Proofs.CheckedString
import Verif.Props.AssertsString
import Verif.Model.Serial
import Verif.Spec.Serial
import Verif.Proofs.Serial
import Verif.Proofs.SerialPure
import Verif.Props.Serial
import Verif.Model.Signature
import Verif.Spec.Signature
import Verif.Proofs.Signature
import Verif.Props.Signature
import Verif.Model.CheckedExec
import Verif.Spec.AssertsExec
import Verif.Proofs.CheckedExec
import Verif.Proofs.CheckedProgram
import Verif.Props.AssertsExec
import Verif.Model.Accessors
import Verif.Spec.Accessors
import Verif.Proofs.Accessors
import Verif.Props.Accessors
import Verif.Model.VectorThrow
import Verif.Spec.VectorThrow
import Verif.Proofs.VectorThrow
import Verif.Props.VectorThrow
import Verif.Repo.Lexer
import Verif.Repo.Bindings
import Verif.Repo.UMap
import Verif.Repo.Conv
import Verif.Repo.Storage
import Verif.Spec.Utf8
import Verif.Proofs.Utf8
import Verif.Proofs.Utf8Exec
import Verif.Props.Utf8
import Verif.Spec.HeapMap
import Verif.Model.HeapMap
import Verif.Proofs.HeapMap
import Verif.Proofs.HeapMapProg
import Verif.Spec.MapRefs
import Verif.Proofs.MapRefs
import Verif.Props.HeapMap
import Verif.Model.HeapMapThrow
import Verif.Spec.HeapMapThrow
import Verif.Proofs.HeapMapThrow
import Verif.Props.HeapMapThrow
import Verif.Model.Enums
import Verif.Spec.Enums
import Verif.Proofs.Enums
import Verif.Proofs.Flags
import Verif.Props.Enums
import Verif.Props.Flags
import Verif.Model.Observe
import Verif.Spec.Book
import Verif.Proofs.Independent
import Verif.Proofs.IndependentMaps
import Verif.Props.Independent
import Verif.Model.Passing
import Verif.Spec.Passing
import Verif.Proofs.Passing
import Verif.Props.Passing
import Verif.Spec.Semantics
import Verif.Proofs.Semantics
import Verif.Props.Semantics
import Verif.Model.Console
import Verif.Spec.Console
import Verif.Proofs.Console
import Verif.Proofs.ConsoleRun
import Verif.Props.Console
import Verif.Model.Scoped
import Verif.Spec.Scoped
import Verif.Proofs.Scoped
import Verif.Proofs.ScopedIdeal
import Verif.Props.Scoped
import Verif.Model.StringThrow
import Verif.Spec.StringThrow
import Verif.Proofs.StringThrow
import Verif.Props.StringThrow
import Verif.Spec.LexCfg
import Verif.Proofs.LexCfg
import Verif.Props.LexCfg
import Verif.Model.Views
import Verif.Spec.Views
import Verif.Proofs.Views
import Verif.Proofs.ViewsLift
import Verif.Proofs.ViewsInput
import Verif.Props.Views
import Verif.Model.ExecThrow
import Verif.Spec.ExecThrow
import Verif.Proofs.ExecThrow
import Verif.Proofs.ExecThrowBack
import Verif.Proofs.ExecThrowMap
import Verif.Proofs.ExecThrowPlenty
import Verif.Props.ExecThrow
import Verif.Model.ViewsLift
import Verif.Model.Kept
import Verif.Spec.Kept
import Verif.Proofs.Kept
import Verif.Proofs.KeptExamples
import Verif.Props.Kept
import Verif.Model.LexCost
import Verif.Proofs.LexCost
import Verif.Props.LexCost
import Verif.Model.FindCost
import Verif.Proofs.FindCost
import Verif.Props.FindCost
import Verif.Model.Arith
import Verif.Proofs.OneForm
import Verif.Proofs.Arith
import Verif.Props.Arith
import Verif.Model.FloatArith
import Verif.Model.FloatCommands
import Verif.Spec.FloatSum
import Verif.Proofs.FloatArith
import Verif.Proofs.FloatSum
import Verif.Props.FloatSum
import Verif.Model.Window
import Verif.Proofs.Window
import Verif.Props.Window
import Verif.Model.Sized
import Verif.Props.Sized
import Verif.Model.Variadic
import Verif.Spec.Variadic
import Verif.Props.Variadic
import Verif.Model.Angle
import Verif.Proofs.Angle
import Verif.Props.Angle
import Verif.Spec.Inventory
import Verif.Props.Inventory
import Verif.Model.NamedCommands
import Verif.Spec.NamedCommands
import Verif.Proofs.PrintF
import Verif.Props.NamedCommands
import Verif.Model.Particles
import Verif.Spec.Particles
import Verif.Proofs.Again
import Verif.Props.Particles
import Verif.Model.Encapsulation
import Verif.Spec.Encapsulation
import Verif.Spec.NamesOnly
import Verif.Proofs.Encapsulation
import Verif.Proofs.EncapsulationStep
import Verif.Proofs.Shapes
import Verif.Proofs.NamesOnly
import Verif.Proofs.EncapsulationMap
import Verif.Props.NamesOnly
import Verif.Props.Encapsulation
import Verif.Model.ErrorCommands
import Verif.Spec.ErrorCommands
import Verif.Proofs.Sqrt
import Verif.Props.ErrorCommands
import Verif.Spec.Fixed
import Verif.Proofs.Fixed
import Verif.Props.Fixed
import Verif.Model.Pool
import Verif.Spec.Pool
import Verif.Proofs.Pool
import Verif.Props.Pool
import Verif.Spec.Story
import Verif.Proofs.Story
import Verif.Model.Swarm
import Verif.Spec.Swarm
import Verif.Proofs.Swarm
import Verif.Proofs.Travel
import Verif.Props.Swarm
import Verif.Model.VarProgram
import Verif.Spec.VarProgram
import Verif.Proofs.VarProgram
import Verif.Props.VarProgram
import Verif.Model.BasicExample
import Verif.Spec.Answered
import Verif.Spec.BasicExample
import Verif.Proofs.Answered
import Verif.Proofs.BasicExample
import Verif.Props.Answered
import Verif.Props.BasicExample
import Verif.Model.Overloading
import Verif.Spec.Overloading
import Verif.Proofs.Overloading
import Verif.Props.Overloading
import Verif.Model.EnumPrograms
import Verif.Spec.EnumPrograms
import Verif.Proofs.EnumPrograms
import Verif.Props.EnumPrograms
import Verif.Spec.Account
import Verif.Proofs.Account
import Verif.Model.EntityProgram
import Verif.Spec.EntityProgram
import Verif.Proofs.EntityProgram
import Verif.Props.EntityProgram
import Verif.Model.ErrorProgram
import Verif.Spec.ErrorProgram
import Verif.Proofs.ErrorProgram
import Verif.Props.ErrorProgram
import Verif.Model.PropertyProgram
import Verif.Spec.PropertyProgram
import Verif.Proofs.PropertyProgram
import Verif.Props.PropertyProgram
import Verif.Model.NamedProgram
import Verif.Spec.NamedProgram
import Verif.Proofs.NamedProgram
import Verif.Props.NamedProgram
import Verif.Spec.UserProgram
import Verif.Proofs.UserProgram
import Verif.Props.UserProgram
import Verif.Model.AdvancedProgram
import Verif.Spec.Growing
import Verif.Proofs.Growing
import Verif.Props.Growing
import Verif.Spec.AdvancedProgram
import Verif.Proofs.AdvancedProgram
import Verif.Props.AdvancedProgram
import Verif.Spec.Refusal
import Verif.Proofs.Refusal
import Verif.Props.Refusal
import Verif.Spec.RefusalGrowing
import Verif.Proofs.RefusalGrowing
import Verif.Props.RefusalGrowing
import Verif.Spec.RefusalEncapsulation
import Verif.Proofs.RefusalEncapsulation
import Verif.Props.RefusalEncapsulation
import Verif.Spec.Record
import Verif.Proofs.Record
import Verif.Props.Record
import Verif.Spec.OneRecord
import Verif.Proofs.OneRecord
import Verif.Props.OneRecord

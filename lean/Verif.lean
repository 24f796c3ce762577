import Verif.Conformance.DeclTests
import Verif.Conformance.DocTests
import Verif.Conformance.ExprTests
import Verif.Conformance.ExprTextTests
import Verif.Conformance.ExtensionTests
import Verif.Conformance.HandlerTests
import Verif.Conformance.LineTests
import Verif.Conformance.PlanTests
import Verif.Conformance.ReadTypeTests
import Verif.Conformance.RelTests
import Verif.Conformance.RelTextTests
import Verif.Conformance.SectionTests
import Verif.Conformance.StoreTests
import Verif.Conformance.StructureTests
import Verif.Conformance.Tools
import Verif.Conformance.TypeTests
import Verif.Conformance.ValueTests
import Verif.Model.Base
import Verif.Model.Bytes
import Verif.Model.Calendar
import Verif.Model.Chrono
import Verif.Model.Chunks
import Verif.Model.Cli
import Verif.Model.Columns
import Verif.Model.Counted
import Verif.Model.Escape
import Verif.Model.Examples
import Verif.Model.ExprEq
import Verif.Model.Exprs
import Verif.Model.ExtArgs
import Verif.Model.ExtSection
import Verif.Model.Json
import Verif.Model.Literals
import Verif.Model.Located
import Verif.Model.Messages
import Verif.Model.Num
import Verif.Model.OMap
import Verif.Model.Out
import Verif.Model.Peg
import Verif.Model.Plan
import Verif.Model.Registry
import Verif.Model.RelConv
import Verif.Model.RelLines
import Verif.Model.Rels
import Verif.Model.Sections
import Verif.Model.Store
import Verif.Model.Tool
import Verif.Model.Tree
import Verif.Model.Types
import Verif.Model.VersionWrite
import Verif.Model.Wire
import Verif.Proofs.Accept
import Verif.Proofs.Apart
import Verif.Proofs.ArgListExact
import Verif.Proofs.Blocks
import Verif.Proofs.Bytes
import Verif.Proofs.Calendar
import Verif.Proofs.Canonical
import Verif.Proofs.Chrono
import Verif.Proofs.Chunks
import Verif.Proofs.Cli
import Verif.Proofs.Complete
import Verif.Proofs.Counted
import Verif.Proofs.CountedArgs
import Verif.Proofs.CountedExprs
import Verif.Proofs.CountedLists
import Verif.Proofs.CountedNests
import Verif.Proofs.CountedShared
import Verif.Proofs.CountedTypes
import Verif.Proofs.Crash
import Verif.Proofs.CrashRels
import Verif.Proofs.CrashText
import Verif.Proofs.Declare
import Verif.Proofs.EquivRel
import Verif.Proofs.Escape
import Verif.Proofs.Exact
import Verif.Proofs.ExprHead
import Verif.Proofs.Exprs
import Verif.Proofs.ExprsErr
import Verif.Proofs.ExprsExact
import Verif.Proofs.ExprsExactRead
import Verif.Proofs.ExprsRT
import Verif.Proofs.ExtArgs
import Verif.Proofs.ExtArgsExact
import Verif.Proofs.ExtArgsRT
import Verif.Proofs.ExtLinesExact
import Verif.Proofs.ExtSection
import Verif.Proofs.Grammar
import Verif.Proofs.GrammarRel
import Verif.Proofs.GrowReg
import Verif.Proofs.Hazards
import Verif.Proofs.HazardsFree
import Verif.Proofs.HazardsRel
import Verif.Proofs.HazardsText
import Verif.Proofs.HeadBlock
import Verif.Proofs.Image
import Verif.Proofs.Inputs
import Verif.Proofs.Layout
import Verif.Proofs.Lines
import Verif.Proofs.LinesExact
import Verif.Proofs.LinesExactFetch
import Verif.Proofs.LinesExactOps
import Verif.Proofs.LinesExactProject
import Verif.Proofs.LinesExactRead
import Verif.Proofs.LinesExactVirtual
import Verif.Proofs.Listed
import Verif.Proofs.Literals
import Verif.Proofs.LiteralsExact
import Verif.Proofs.LiteralsImage
import Verif.Proofs.LiteralsMore
import Verif.Proofs.Located
import Verif.Proofs.LocatedAt
import Verif.Proofs.LocatedConv
import Verif.Proofs.Meaning
import Verif.Proofs.MeaningRels
import Verif.Proofs.MoreDecls
import Verif.Proofs.Neat
import Verif.Proofs.Nested
import Verif.Proofs.NoNewline
import Verif.Proofs.Num
import Verif.Proofs.OMap
import Verif.Proofs.OptErrs
import Verif.Proofs.OptionsExact
import Verif.Proofs.Panics
import Verif.Proofs.PanicsRead
import Verif.Proofs.Parts
import Verif.Proofs.Peg
import Verif.Proofs.Pest
import Verif.Proofs.PestExprs
import Verif.Proofs.PestLines
import Verif.Proofs.PlanExact
import Verif.Proofs.PlanLines
import Verif.Proofs.PlanText
import Verif.Proofs.PlanWhole
import Verif.Proofs.Printed
import Verif.Proofs.Raw
import Verif.Proofs.RawLeast
import Verif.Proofs.RawLines
import Verif.Proofs.Registry
import Verif.Proofs.RelConv
import Verif.Proofs.RelLine
import Verif.Proofs.RelLineAggregate
import Verif.Proofs.RelLineOps
import Verif.Proofs.RelLineProject
import Verif.Proofs.RelLineRT
import Verif.Proofs.RelLineRead
import Verif.Proofs.RelLineVirtual
import Verif.Proofs.RelNames
import Verif.Proofs.RelText
import Verif.Proofs.Renumber
import Verif.Proofs.RenumberPlan
import Verif.Proofs.RenumberRel
import Verif.Proofs.ReparseExpr
import Verif.Proofs.ReparsePlan
import Verif.Proofs.ReparseRel
import Verif.Proofs.Resolve
import Verif.Proofs.Rules
import Verif.Proofs.Scope
import Verif.Proofs.SectionOrder
import Verif.Proofs.SectionRun
import Verif.Proofs.Sections
import Verif.Proofs.Silent
import Verif.Proofs.SilentFix
import Verif.Proofs.SpaceLines
import Verif.Proofs.SpacePlan
import Verif.Proofs.SpaceRules
import Verif.Proofs.Spaces
import Verif.Proofs.Store
import Verif.Proofs.Temporal
import Verif.Proofs.TextExact
import Verif.Proofs.Tidy
import Verif.Proofs.TidyExact
import Verif.Proofs.Tokens
import Verif.Proofs.TokensPlan
import Verif.Proofs.Tool
import Verif.Proofs.Tree
import Verif.Proofs.TreeText
import Verif.Proofs.TreesExact
import Verif.Proofs.Trim
import Verif.Proofs.Types
import Verif.Proofs.TypesErr
import Verif.Proofs.TypesExact
import Verif.Proofs.Unrelated
import Verif.Proofs.UnrelatedRead
import Verif.Proofs.UnrelatedText
import Verif.Proofs.UnrelatedWrite
import Verif.Proofs.WidthsExact
import Verif.Proofs.Wire
import Verif.Proofs.WireExact
import Verif.Props.Accept
import Verif.Props.Addenda
import Verif.Props.AddendaExact
import Verif.Props.Alarms
import Verif.Props.Apart
import Verif.Props.Author
import Verif.Props.Bytes
import Verif.Props.Cli
import Verif.Props.Counted
import Verif.Props.Crash
import Verif.Props.DeclRound
import Verif.Props.Declare
import Verif.Props.EquivRel
import Verif.Props.Exact
import Verif.Props.ExampleUrls
import Verif.Props.Examples
import Verif.Props.Exprs
import Verif.Props.ExprsExact
import Verif.Props.ExtArgs
import Verif.Props.ExtArgsExact
import Verif.Props.ExtLinesExact
import Verif.Props.ExtSection
import Verif.Props.Grow
import Verif.Props.Hazards
import Verif.Props.Image
import Verif.Props.Inputs
import Verif.Props.Json
import Verif.Props.Layout
import Verif.Props.Lines
import Verif.Props.LinesExact
import Verif.Props.Literals
import Verif.Props.LiteralsExact
import Verif.Props.Located
import Verif.Props.Meaning
import Verif.Props.Messages
import Verif.Props.MoreDecls
import Verif.Props.Nested
import Verif.Props.Options
import Verif.Props.OptionsExact
import Verif.Props.Panics
import Verif.Props.Parts
import Verif.Props.Pest
import Verif.Props.Pinned
import Verif.Props.Plan
import Verif.Props.PlanExact
import Verif.Props.Raw
import Verif.Props.Registry
import Verif.Props.RelConv
import Verif.Props.Renumber
import Verif.Props.Reparse
import Verif.Props.ResolveExact
import Verif.Props.Sample
import Verif.Props.SamplePlan
import Verif.Props.Scope
import Verif.Props.Sections
import Verif.Props.Silent
import Verif.Props.Spaces
import Verif.Props.Store
import Verif.Props.Temporal
import Verif.Props.Text
import Verif.Props.Tokens
import Verif.Props.Tool
import Verif.Props.Tree
import Verif.Props.TreesExact
import Verif.Props.Types
import Verif.Props.TypesExact
import Verif.Props.Unrelated
import Verif.Props.Widening
import Verif.Props.WidthsExact
import Verif.Props.Wire
import Verif.Props.WireExact
import Verif.Props.Words
import Verif.Spec.Accept
import Verif.Spec.Attempts
import Verif.Spec.Bytes
import Verif.Spec.Chunks
import Verif.Spec.Cli
import Verif.Spec.Complete
import Verif.Spec.Crash
import Verif.Spec.Declare
import Verif.Spec.Exact
import Verif.Spec.Examples
import Verif.Spec.Exprs
import Verif.Spec.ExprsExact
import Verif.Spec.ExtArgs
import Verif.Spec.ExtArgsExact
import Verif.Spec.Grammar
import Verif.Spec.Hazards
import Verif.Spec.Image
import Verif.Spec.Inputs
import Verif.Spec.Layout
import Verif.Spec.LinesExact
import Verif.Spec.Literals
import Verif.Spec.LiteralsExact
import Verif.Spec.Located
import Verif.Spec.Meaning
import Verif.Spec.Neat
import Verif.Spec.Nested
import Verif.Spec.Panics
import Verif.Spec.Parts
import Verif.Spec.Pest
import Verif.Spec.Plan
import Verif.Spec.PlanLines
import Verif.Spec.Raw
import Verif.Spec.Registry
import Verif.Spec.Rels
import Verif.Spec.Renumber
import Verif.Spec.Reparse
import Verif.Spec.Scope
import Verif.Spec.Sections
import Verif.Spec.Silent
import Verif.Spec.Spaces
import Verif.Spec.Store
import Verif.Spec.Supported
import Verif.Spec.Temporal
import Verif.Spec.Text
import Verif.Spec.Tidy
import Verif.Spec.TidyShown
import Verif.Spec.Tokens
import Verif.Spec.Tree
import Verif.Spec.TreesExact
import Verif.Spec.Types
import Verif.Spec.TypesExact
import Verif.Spec.Unrelated
import Verif.Spec.WidthsExact
import Verif.Spec.Wire

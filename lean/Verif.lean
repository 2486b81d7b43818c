import Verif.Model.Validate
import Verif.Spec.Grammar
import Verif.Spec.WellFormed
import Verif.Spec.Document
import Verif.Proof.Decode
import Verif.Proof.Sem
import Verif.Proof.Triple
import Verif.Proof.Rel
import Verif.Proof.Ty
import Verif.Proof.TextD
import Verif.Proof.StartD
import Verif.Proof.AttD
import Verif.Proof.Run
import Verif.Proof.Bot
import Verif.Proof.Rep
import Verif.Proof.SpecLink
import Verif.Proof.Strict
import Verif.Proof.CompileOk
import Verif.Proof.Compiled
import Verif.Proof.Top
import Verif.Proof.Sim
import Verif.Proof.Doc
import Verif.Props.Example
import Verif.Props.Validation
import Verif.Props.Panics
import Verif.Props.Store
import Verif.Proof.Prog
import Verif.Proof.Step
import Verif.Proof.CompileInv
import Verif.Proof.Total
import Verif.Proof.TotalRun
import Verif.Proof.TotalCompile
import Verif.Proof.CompileFault
import Verif.Proof.Fuel
import Verif.Proof.TotalEvents
import Verif.Spec.Reach
import Verif.Spec.Edits
import Verif.Proof.Edits
import Verif.Proof.Algebra
import Verif.Props.Edits
import Verif.Spec.Content
import Verif.Props.Content
import Verif.Spec.Xml
import Verif.Props.Text
import Verif.Props.Names
import Verif.Props.Memo
import Verif.Props.Datatype
import Verif.Props.Numbers
import Verif.Props.Facets
import Verif.Props.Lengths
import Verif.Props.Lexical
import Verif.Props.DtPanics
import Verif.Model.Schema
import Verif.Spec.Source
import Verif.Proof.Merge
import Verif.Spec.Merge
import Verif.Proof.MergeAll
import Verif.Proof.SchemaSem
import Verif.Proof.SchemaSem2
import Verif.Proof.SchemaState
import Verif.Proof.SchemaPrim
import Verif.Proof.SchemaRun
import Verif.Proof.SchemaNames
import Verif.Proof.SchemaComp
import Verif.Proof.SchemaMain
import Verif.Proof.SchemaRefs
import Verif.Props.Schema
import Verif.Props.SchemaMeaning
import Verif.Proof.SchemaCheck
import Verif.Props.SchemaChecks
import Verif.Spec.Places
import Verif.Spec.Faults
import Verif.Proof.SchemaPlaces
import Verif.Props.SchemaPlaces
import Verif.Props.SchemaFindings
import Verif.Proof.SchemaTerm
import Verif.Props.SchemaTerm
import Verif.Proof.SchemaSame
import Verif.Props.SchemaSame
import Verif.Proof.SchemaEvery
import Verif.Props.SchemaOverrides
import Verif.Proof.SchemaDangling
import Verif.Proof.SchemaRefers
import Verif.Proof.SchemaFail
import Verif.Proof.SchemaFails
import Verif.Props.SchemaFaults
import Verif.Proof.SchemaReject
import Verif.Proof.SchemaRejects
import Verif.Props.SchemaExact

import Verif.Model.Compact
import Verif.Spec.Compact
import Verif.Proof.CompactLex
import Verif.Proof.CompactLit
import Verif.Proof.CompactAnn
import Verif.Proof.CompactPat
import Verif.Proof.CompactPrim
import Verif.Proof.CompactMain
import Verif.Proof.CompactTop
import Verif.Proof.CompactTerm
import Verif.Proof.CompactSound
import Verif.Proof.CompactSound2
import Verif.Proof.CompactSound3
import Verif.Proof.CompactCalm
import Verif.Props.Compact
import Verif.Props.CompactCases
import Verif.Model.XmlSyntax
import Verif.Spec.XmlSyntax
import Verif.Proof.XmlLeaf
import Verif.Proof.XmlRead
import Verif.Proof.XmlMain
import Verif.Proof.XmlPath
import Verif.Proof.XmlNoise
import Verif.Proof.XmlMono
import Verif.Props.XmlSyntax
import Verif.Props.XmlCases
import Verif.Spec.Alike
import Verif.Spec.Translate
import Verif.Proof.SchemaMore
import Verif.Proof.Alike
import Verif.Proof.Translate
import Verif.Props.Alike
import Verif.Props.AlikeCases
import Verif.Model.Spans
import Verif.Spec.Spans
import Verif.Proof.Spans
import Verif.Proof.Blame
import Verif.Props.Spans
import Verif.Model.Diagnostic
import Verif.Spec.Diagnostic
import Verif.Proof.Diagnostic
import Verif.Model.Tool
import Verif.Proof.DiagRun
import Verif.Proof.Lines
import Verif.Props.Diagnostic
import Verif.Props.DiagCases
import Verif.Spec.Tool
import Verif.Proof.Tool
import Verif.Props.Tool
import Verif.Props.ToolTotal
import Verif.Props.ToolCases
import Verif.Model.SchemaSpans
import Verif.Spec.SchemaSpans
import Verif.Proof.SchemaSpans
import Verif.Proof.SchemaBlame
import Verif.Proof.SchemaBlame2
import Verif.Proof.SchemaPlaced
import Verif.Props.SchemaSpans
import Verif.Model.CompactSpans
import Verif.Spec.CompactSpans
import Verif.Proof.CompactSpans
import Verif.Proof.CompactReads
import Verif.Props.CompactSpans
import Verif.Props.SchemaSpanCases
import Verif.Model.SchemaDiag
import Verif.Spec.SchemaDiag
import Verif.Props.SchemaDiag
import Verif.Props.ToolSpans
import Verif.Props.SchemaDiagCases
import Verif.Model.XmlSpans
import Verif.Spec.XmlSpans
import Verif.Props.XmlSpans
import Verif.Props.XmlSpanCases
import Verif.Model.CompactErrors
import Verif.Spec.CompactErrors
import Verif.Props.CompactErrors
import Verif.Props.CompactErrorCases
import Verif.Model.XmlDiag
import Verif.Spec.XmlDiag
import Verif.Props.XmlDiag
import Verif.Props.XmlDiagCases
import Verif.Spec.Facets
import Verif.Proof.FacetOutcome
import Verif.Props.FacetOutcome
import Verif.Model.FacetApi
import Verif.Spec.FacetApi
import Verif.Props.FacetApi
import Verif.Props.FacetApiMore
import Verif.Spec.Loaded
import Verif.Proof.Loaded
import Verif.Props.Loaded
import Verif.Spec.Viable
import Verif.Proof.Live
import Verif.Proof.LiveSat
import Verif.Proof.LiveRep
import Verif.Proof.LiveRun
import Verif.Proof.LiveDoc
import Verif.Proof.LiveCut
import Verif.Proof.LiveSer
import Verif.Proof.LiveFill
import Verif.Proof.LiveTop
import Verif.Props.Viable
import Verif.Props.ViableCases
import Verif.Props.Memory
import Verif.Props.Held
import Verif.Props.Refactor
import Verif.Spec.Order
import Verif.Proof.Order
import Verif.Proof.OrderFaults
import Verif.Props.Order
import Verif.Spec.Split
import Verif.Proof.Split
import Verif.Proof.SplitDoc
import Verif.Props.Split
import Verif.Spec.Seen
import Verif.Proof.Taken
import Verif.Proof.Seen
import Verif.Proof.SeenDoc
import Verif.Props.Seen
import Verif.Props.SeenTool
import Verif.Props.Earliest
import Verif.Props.SeenSource
import Verif.Props.Needed
import Verif.Props.Checked
import Verif.Props.Sure
import Verif.Props.ToolJudges
import Verif.Props.Size
import Verif.Props.Loosen
import Verif.Props.Union
import Verif.Props.Swap
import Verif.Props.Opaque
import Verif.Props.Prefix
import Verif.Props.Reword
import Verif.Props.Mixed
import Verif.Props.Described
import Verif.Props.Required
import Verif.Props.Records
import Verif.Props.AnyOrder
import Verif.Props.Wild

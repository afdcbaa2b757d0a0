import Verif.Lemmas.Again
import Verif.Lemmas.Agree
import Verif.Lemmas.Apart
import Verif.Lemmas.ApartDecode
import Verif.Lemmas.ApartResolve
import Verif.Lemmas.Bisim
import Verif.Lemmas.Check
import Verif.Lemmas.ClimbInherit
import Verif.Lemmas.ClimbNames
import Verif.Lemmas.ClimbUnwrap
import Verif.Lemmas.Clone
import Verif.Lemmas.CloneTotal
import Verif.Lemmas.Commons
import Verif.Lemmas.Embed
import Verif.Lemmas.EmbedClone
import Verif.Lemmas.EmbedCopy
import Verif.Lemmas.EmbedInherit
import Verif.Lemmas.EmbedSource
import Verif.Lemmas.EmbedSpec
import Verif.Lemmas.EmbedUnwrap
import Verif.Lemmas.Facets
import Verif.Lemmas.Files
import Verif.Lemmas.Flat
import Verif.Lemmas.FlatAll
import Verif.Lemmas.FlatEnds
import Verif.Lemmas.Fuel
import Verif.Lemmas.Graph
import Verif.Lemmas.Grown
import Verif.Lemmas.HaltBase
import Verif.Lemmas.HaltDecode
import Verif.Lemmas.HaltEnds
import Verif.Lemmas.HaltFrag
import Verif.Lemmas.HaltResolve
import Verif.Lemmas.HookedPolicy
import Verif.Lemmas.HookedQuiet
import Verif.Lemmas.HookedSim
import Verif.Lemmas.Hooks
import Verif.Lemmas.Inherit
import Verif.Lemmas.InheritScalar
import Verif.Lemmas.KeepId
import Verif.Lemmas.Kin
import Verif.Lemmas.KinAll
import Verif.Lemmas.KinLine
import Verif.Lemmas.KinStay
import Verif.Lemmas.KinTop
import Verif.Lemmas.KinUnwrap
import Verif.Lemmas.LinesDecode
import Verif.Lemmas.LinesResolve
import Verif.Lemmas.LoadDecode
import Verif.Lemmas.LoadEnds
import Verif.Lemmas.LoadEntry
import Verif.Lemmas.LoadFrag
import Verif.Lemmas.LoadInv
import Verif.Lemmas.LoadMain
import Verif.Lemmas.LoadParse
import Verif.Lemmas.LoadPrim
import Verif.Lemmas.LoadResolve
import Verif.Lemmas.LoadShape
import Verif.Lemmas.LoadVisit
import Verif.Lemmas.MapOrder
import Verif.Lemmas.Mark
import Verif.Lemmas.MarkGuarded
import Verif.Lemmas.MarkMain
import Verif.Lemmas.MarkRun
import Verif.Lemmas.MarkTotal
import Verif.Lemmas.MarkValid
import Verif.Lemmas.Mean
import Verif.Lemmas.MeanAll
import Verif.Lemmas.MeanCheck
import Verif.Lemmas.MeanEnd
import Verif.Lemmas.MeanFragments
import Verif.Lemmas.MeanInherit
import Verif.Lemmas.MeanUnwrap
import Verif.Lemmas.Monad
import Verif.Lemmas.Names
import Verif.Lemmas.Narrow
import Verif.Lemmas.NarrowMain
import Verif.Lemmas.NarrowObject
import Verif.Lemmas.Node
import Verif.Lemmas.OMap
import Verif.Lemmas.Rdt
import Verif.Lemmas.ReadBase
import Verif.Lemmas.ReadChange
import Verif.Lemmas.ReadEntries
import Verif.Lemmas.ReadFacets
import Verif.Lemmas.ReadFrag
import Verif.Lemmas.ReadHead
import Verif.Lemmas.ReadLater
import Verif.Lemmas.ReadMake
import Verif.Lemmas.ReadParse
import Verif.Lemmas.ReadResolve
import Verif.Lemmas.ReadShape
import Verif.Lemmas.Ready
import Verif.Lemmas.Required
import Verif.Lemmas.Scalars
import Verif.Lemmas.Schema
import Verif.Lemmas.SchemaCheck
import Verif.Lemmas.SchemaMap
import Verif.Lemmas.SchemaMem
import Verif.Lemmas.SchemaRefs
import Verif.Lemmas.SchemaSem
import Verif.Lemmas.SchemaShallow
import Verif.Lemmas.SchemaTotal
import Verif.Lemmas.Settle
import Verif.Lemmas.Sticky
import Verif.Lemmas.Still
import Verif.Lemmas.StillAgain
import Verif.Lemmas.StillAll
import Verif.Lemmas.StillDone
import Verif.Lemmas.StillTwice
import Verif.Lemmas.Stops
import Verif.Lemmas.StopsAll
import Verif.Lemmas.StopsInherit
import Verif.Lemmas.StopsMark
import Verif.Lemmas.StopsUnwrap
import Verif.Lemmas.Tag
import Verif.Lemmas.TagAll
import Verif.Lemmas.TagFiles
import Verif.Lemmas.TagKept
import Verif.Lemmas.TagParse
import Verif.Lemmas.TagStay
import Verif.Lemmas.TagStayAll
import Verif.Lemmas.TagSteps
import Verif.Lemmas.TagValid
import Verif.Lemmas.Tame
import Verif.Lemmas.TameDecode
import Verif.Lemmas.TameFrag
import Verif.Lemmas.TameNode
import Verif.Lemmas.TameResolve
import Verif.Lemmas.TameShape
import Verif.Lemmas.Terminate
import Verif.Lemmas.UnionInherit
import Verif.Lemmas.UnionSource
import Verif.Lemmas.UnwrapStep
import Verif.Lemmas.Unwrapped
import Verif.Lemmas.Validate
import Verif.Lemmas.Verdict
import Verif.Lemmas.VerdictAll
import Verif.Lemmas.Visited
import Verif.Lemmas.Whole
import Verif.Lemmas.WholeAll
import Verif.Lemmas.WholeClone
import Verif.Lemmas.WholeEnds
import Verif.Lemmas.WholeExt
import Verif.Lemmas.WholeHeads
import Verif.Lemmas.WholeInherit
import Verif.Lemmas.WholeLoaded
import Verif.Lemmas.WholeMark
import Verif.Lemmas.WholeUnwrap
import Verif.Lemmas.YamlError
import Verif.Model.Alias
import Verif.Model.Check
import Verif.Model.Cli
import Verif.Model.Clone
import Verif.Model.Commons
import Verif.Model.Decode
import Verif.Model.Facets
import Verif.Model.Go
import Verif.Model.Heap
import Verif.Model.Hooked
import Verif.Model.Hooks
import Verif.Model.Ids
import Verif.Model.Inherit
import Verif.Model.Lookup
import Verif.Model.Mark
import Verif.Model.Monad
import Verif.Model.Names
import Verif.Model.Node
import Verif.Model.Parse
import Verif.Model.Rdt
import Verif.Model.Resolve
import Verif.Model.Scalars
import Verif.Model.Schema
import Verif.Model.SchemaMap
import Verif.Model.SchemaMem
import Verif.Model.Unwrap
import Verif.Model.UnwrapAll
import Verif.Model.Validate
import Verif.Model.ValidateAll
import Verif.Model.Yaml
import Verif.Model.YamlError
import Verif.Props.Ancestry
import Verif.Props.Apart
import Verif.Props.Check
import Verif.Props.Cli
import Verif.Props.Climb
import Verif.Props.Clone
import Verif.Props.Commons
import Verif.Props.Decode
import Verif.Props.EndToEnd
import Verif.Props.Ends
import Verif.Props.Expr
import Verif.Props.Facets
import Verif.Props.Files
import Verif.Props.Flat
import Verif.Props.FlatEnds
import Verif.Props.Heirs
import Verif.Props.History
import Verif.Props.Home
import Verif.Props.Hooked
import Verif.Props.Hooks
import Verif.Props.Ids
import Verif.Props.Ignored
import Verif.Props.InFiles
import Verif.Props.Inherit
import Verif.Props.InheritScalar
import Verif.Props.InheritUnion
import Verif.Props.Lineage
import Verif.Props.Load
import Verif.Props.Mark
import Verif.Props.Meaning
import Verif.Props.Names
import Verif.Props.Node
import Verif.Props.Panic
import Verif.Props.Rdt
import Verif.Props.Refs
import Verif.Props.Registry
import Verif.Props.Required
import Verif.Props.Schema
import Verif.Props.SchemaDiff
import Verif.Props.SchemaMap
import Verif.Props.SchemaMem
import Verif.Props.SchemaShallow
import Verif.Props.Stay
import Verif.Props.Stops
import Verif.Props.Twice
import Verif.Props.UnionSource
import Verif.Props.Unwrap
import Verif.Props.UnwrapAll
import Verif.Props.Validate
import Verif.Props.ValidateAll
import Verif.Props.Verdict
import Verif.Props.YamlError
import Verif.Spec.Ancestry
import Verif.Spec.Apart
import Verif.Spec.Check
import Verif.Spec.Commons
import Verif.Spec.Decode
import Verif.Spec.Ends
import Verif.Spec.Expr
import Verif.Spec.Facets
import Verif.Spec.Files
import Verif.Spec.Flat
import Verif.Spec.FlatEnds
import Verif.Spec.Graph
import Verif.Spec.Heirs
import Verif.Spec.History
import Verif.Spec.Hooked
import Verif.Spec.Hooks
import Verif.Spec.Ignored
import Verif.Spec.Inherit
import Verif.Spec.Lineage
import Verif.Spec.Load
import Verif.Spec.Mark
import Verif.Spec.Meaning
import Verif.Spec.Names
import Verif.Spec.NoUnions
import Verif.Spec.Node
import Verif.Spec.Orderly
import Verif.Spec.Rdt
import Verif.Spec.Refs
import Verif.Spec.Registry
import Verif.Spec.Schema
import Verif.Spec.SchemaMap
import Verif.Spec.SchemaMem
import Verif.Spec.Twice
import Verif.Spec.UnwrapAll
import Verif.Spec.Valid
import Verif.Spec.ValidateAll
import Verif.Spec.Verdict
import Verif.Spec.YamlError

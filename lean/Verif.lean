import Verif.Model.Affordance
import Verif.Model.Bounds
import Verif.Model.Codec
import Verif.Model.Debug
import Verif.Model.Default
import Verif.Model.Equality
import Verif.Model.FloatText
import Verif.Model.Form
import Verif.Model.HList
import Verif.Model.Json
import Verif.Model.JsonText
import Verif.Model.LangTag
import Verif.Model.Message
import Verif.Model.Prelude
import Verif.Model.Protocol
import Verif.Model.Reach
import Verif.Model.Schema
import Verif.Model.SchemaBuilder
import Verif.Model.SchemaCheck
import Verif.Model.Security
import Verif.Model.Serde
import Verif.Model.Text
import Verif.Model.Thing
import Verif.Model.Time
import Verif.Spec.Access
import Verif.Spec.Basic
import Verif.Spec.Blank
import Verif.Spec.Build
import Verif.Spec.Buildable
import Verif.Spec.Calls
import Verif.Spec.Complete
import Verif.Spec.Conform
import Verif.Spec.CustomScheme
import Verif.Spec.Defaults
import Verif.Spec.Document
import Verif.Spec.Edits
import Verif.Spec.Equality
import Verif.Spec.Float
import Verif.Spec.FloatText
import Verif.Spec.FloatThing
import Verif.Spec.Grammar
import Verif.Spec.HList
import Verif.Spec.History
import Verif.Spec.JsonText
import Verif.Spec.Lang
import Verif.Spec.LangTag
import Verif.Spec.Layout
import Verif.Spec.LeftOut
import Verif.Spec.Less
import Verif.Spec.Meaning
import Verif.Spec.MeaningProtocol
import Verif.Spec.Members
import Verif.Spec.Message
import Verif.Spec.Nesting
import Verif.Spec.Offers
import Verif.Spec.Operations
import Verif.Spec.Order
import Verif.Spec.Phases
import Verif.Spec.Protocol
import Verif.Spec.Range
import Verif.Spec.Readers
import Verif.Spec.Reading
import Verif.Spec.Rename
import Verif.Spec.RenameAccess
import Verif.Spec.Reread
import Verif.Spec.SameCalls
import Verif.Spec.Schema
import Verif.Spec.SchemaHistory
import Verif.Spec.SchemaShape
import Verif.Spec.Skipped
import Verif.Spec.Storable
import Verif.Spec.Stored
import Verif.Spec.Thing
import Verif.Spec.Time
import Verif.Spec.Together
import Verif.Spec.Translations
import Verif.Spec.Typed
import Verif.Spec.Unordered
import Verif.Spec.Valid
import Verif.Spec.Values
import Verif.Spec.Vocabulary
import Verif.Spec.Written
import Verif.Spec.WrittenProtocol
import Verif.Lemmas.Access
import Verif.Lemmas.Basic
import Verif.Lemmas.Blind
import Verif.Lemmas.Build
import Verif.Lemmas.BuildParts
import Verif.Lemmas.Buildable
import Verif.Lemmas.BuildableBuilt
import Verif.Lemmas.BuildableLang
import Verif.Lemmas.BuildableParts
import Verif.Lemmas.BuildableSchema
import Verif.Lemmas.BuildableStored
import Verif.Lemmas.BuildableThing
import Verif.Lemmas.Built
import Verif.Lemmas.BuiltStorable
import Verif.Lemmas.Calendar
import Verif.Lemmas.CodecCustom
import Verif.Lemmas.CodecSchema
import Verif.Lemmas.CodecSecurity
import Verif.Lemmas.CodecText
import Verif.Lemmas.CodecThing
import Verif.Lemmas.Complete
import Verif.Lemmas.Conform
import Verif.Lemmas.ConformKept
import Verif.Lemmas.ConformRead
import Verif.Lemmas.Congr
import Verif.Lemmas.Convert
import Verif.Lemmas.Debug
import Verif.Lemmas.Defaults
import Verif.Lemmas.EditLaws
import Verif.Lemmas.EditMembers
import Verif.Lemmas.EditNorm
import Verif.Lemmas.EditParts
import Verif.Lemmas.EditRead
import Verif.Lemmas.Edits
import Verif.Lemmas.Equality
import Verif.Lemmas.FirstDuplicate
import Verif.Lemmas.Float
import Verif.Lemmas.FloatBack
import Verif.Lemmas.FloatClose
import Verif.Lemmas.FloatExact
import Verif.Lemmas.FloatExtreme
import Verif.Lemmas.FloatFinite
import Verif.Lemmas.FloatKept
import Verif.Lemmas.FloatLayout
import Verif.Lemmas.FloatLong
import Verif.Lemmas.FloatNotation
import Verif.Lemmas.FloatRead
import Verif.Lemmas.FloatReread
import Verif.Lemmas.FloatText
import Verif.Lemmas.FloatThing
import Verif.Lemmas.FloatTree
import Verif.Lemmas.FloatWrite
import Verif.Lemmas.Grammar
import Verif.Lemmas.HList
import Verif.Lemmas.History
import Verif.Lemmas.Inversion
import Verif.Lemmas.JsonNumber
import Verif.Lemmas.JsonSkip
import Verif.Lemmas.JsonString
import Verif.Lemmas.JsonStruct
import Verif.Lemmas.JsonText
import Verif.Lemmas.JsonValue
import Verif.Lemmas.LangTag
import Verif.Lemmas.Layout
import Verif.Lemmas.LeftOut
import Verif.Lemmas.Less
import Verif.Lemmas.Meaning
import Verif.Lemmas.Members
import Verif.Lemmas.Message
import Verif.Lemmas.Nesting
import Verif.Lemmas.Numbers
import Verif.Lemmas.Offers
import Verif.Lemmas.Order
import Verif.Lemmas.Outcome
import Verif.Lemmas.Phases
import Verif.Lemmas.Protocol
import Verif.Lemmas.ProtocolText
import Verif.Lemmas.ProtocolThing
import Verif.Lemmas.Range
import Verif.Lemmas.Reach
import Verif.Lemmas.Readers
import Verif.Lemmas.Reading
import Verif.Lemmas.Rename
import Verif.Lemmas.RenameAccess
import Verif.Lemmas.RenameReach
import Verif.Lemmas.RenameResult
import Verif.Lemmas.RenameStored
import Verif.Lemmas.Reread
import Verif.Lemmas.Round
import Verif.Lemmas.SameCalls
import Verif.Lemmas.SameReach
import Verif.Lemmas.Schema
import Verif.Lemmas.SchemaHistory
import Verif.Lemmas.SchemaReach
import Verif.Lemmas.SchemaShape
import Verif.Lemmas.Serde
import Verif.Lemmas.Shortest
import Verif.Lemmas.Spelled
import Verif.Lemmas.Stored
import Verif.Lemmas.StoredTwice
import Verif.Lemmas.Time
import Verif.Lemmas.Together
import Verif.Lemmas.Translations
import Verif.Lemmas.Typed
import Verif.Lemmas.Unordered
import Verif.Lemmas.Unreadable
import Verif.Lemmas.Valid
import Verif.Lemmas.Values
import Verif.Lemmas.Vocabulary
import Verif.Lemmas.Without
import Verif.Lemmas.Writable
import Verif.Lemmas.Writers
import Verif.Lemmas.Written
import Verif.Lemmas.WrittenProtocol
import Verif.Props.Access
import Verif.Props.Affordances
import Verif.Props.Blind
import Verif.Props.Bounds
import Verif.Props.Build
import Verif.Props.Buildable
import Verif.Props.Calls
import Verif.Props.Checked
import Verif.Props.Complete
import Verif.Props.Conform
import Verif.Props.ConformKept
import Verif.Props.ConformRead
import Verif.Props.Conversion
import Verif.Props.Debug
import Verif.Props.Default
import Verif.Props.Defaults
import Verif.Props.Demo
import Verif.Props.DemoBinding
import Verif.Props.DemoDeep
import Verif.Props.DemoStore
import Verif.Props.Documents
import Verif.Props.Edits
import Verif.Props.Equality
import Verif.Props.FloatExact
import Verif.Props.FloatNotation
import Verif.Props.FloatText
import Verif.Props.FloatThing
import Verif.Props.Forms
import Verif.Props.HList
import Verif.Props.JsonText
import Verif.Props.LangTag
import Verif.Props.Languages
import Verif.Props.Layout
import Verif.Props.LeftOut
import Verif.Props.LeftOutAccess
import Verif.Props.LeftOutClients
import Verif.Props.LeftOutRest
import Verif.Props.Less
import Verif.Props.Meaning
import Verif.Props.MeaningProtocol
import Verif.Props.Members
import Verif.Props.Message
import Verif.Props.Nesting
import Verif.Props.Offers
import Verif.Props.Pieces
import Verif.Props.Protocol
import Verif.Props.Ranges
import Verif.Props.Readers
import Verif.Props.Rebuild
import Verif.Props.Rename
import Verif.Props.RenameAccess
import Verif.Props.RenameStored
import Verif.Props.RenameTogether
import Verif.Props.Reread
import Verif.Props.RoundTrip
import Verif.Props.SameCalls
import Verif.Props.Schemas
import Verif.Props.Security
import Verif.Props.Single
import Verif.Props.Skipped
import Verif.Props.Spellings
import Verif.Props.Time
import Verif.Props.Together
import Verif.Props.Typed
import Verif.Props.Unordered
import Verif.Props.Values
import Verif.Props.Vocabulary
import Verif.Props.Without
import Verif.Props.Written
import Verif.Conformance.Affordance
import Verif.Conformance.Builder
import Verif.Conformance.DataSchema
import Verif.Conformance.Docs
import Verif.Conformance.Protocol
import Verif.Conformance.Support
import Verif.Conformance.Thing

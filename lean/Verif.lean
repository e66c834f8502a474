import Verif.Conformance.ClientTests
import Verif.Conformance.Documents
import Verif.Conformance.Ed25519
import Verif.Conformance.Generate
import Verif.Conformance.Interop
import Verif.Conformance.Setup
import Verif.Conformance.Sha2
import Verif.Conformance.TestKeys
import Verif.Conformance.UnitTests
import Verif.Lemmas.Chain
import Verif.Lemmas.Cjson
import Verif.Lemmas.Client
import Verif.Lemmas.Crash
import Verif.Lemmas.Cut
import Verif.Lemmas.Dates
import Verif.Lemmas.Der
import Verif.Lemmas.Disk
import Verif.Lemmas.During
import Verif.Lemmas.Encode
import Verif.Lemmas.Formats
import Verif.Lemmas.Hoare
import Verif.Lemmas.JsonDepth
import Verif.Lemmas.JsonTotal
import Verif.Lemmas.Keeps
import Verif.Lemmas.Map
import Verif.Lemmas.Paths
import Verif.Lemmas.Pretty
import Verif.Lemmas.Readers
import Verif.Lemmas.Restart
import Verif.Lemmas.Sharing
import Verif.Lemmas.Sim
import Verif.Lemmas.StrOrder
import Verif.Lemmas.Timed
import Verif.Lemmas.Tuf
import Verif.Lemmas.Utf8
import Verif.Lemmas.Verify
import Verif.Model.Basic
import Verif.Model.Bitrate
import Verif.Model.Builders
import Verif.Model.Cjson
import Verif.Model.Client
import Verif.Model.Config
import Verif.Model.Copy
import Verif.Model.Depth
import Verif.Model.Encode
import Verif.Model.Ephemeral
import Verif.Model.FilePath
import Verif.Model.FileStore
import Verif.Model.FileSystem
import Verif.Model.Formats
import Verif.Model.Http
import Verif.Model.HttpRepository
import Verif.Model.Json
import Verif.Model.JsonEnv
import Verif.Model.KeyOrder
import Verif.Model.Keys
import Verif.Model.Metadata
import Verif.Model.Paths
import Verif.Model.Pretty
import Verif.Model.Readers
import Verif.Model.Repository
import Verif.Model.Shims
import Verif.Model.Signed
import Verif.Model.StrOrder
import Verif.Model.Tuf
import Verif.Model.Verify
import Verif.Props.Adversary
import Verif.Props.Agreement
import Verif.Props.Anchored
import Verif.Props.Authors
import Verif.Props.AuthorsExample
import Verif.Props.Bitrate
import Verif.Props.Builders
import Verif.Props.BuildersContent
import Verif.Props.Chunks
import Verif.Props.Cjson
import Verif.Props.Client
import Verif.Props.ClientHonest
import Verif.Props.ClientIdempotent
import Verif.Props.ClientRestart
import Verif.Props.ClientTargets
import Verif.Props.ClientTotal
import Verif.Props.ClientUpdate
import Verif.Props.Clocks
import Verif.Props.Config
import Verif.Props.Copy
import Verif.Props.Covering
import Verif.Props.DateTexts
import Verif.Props.Dates
import Verif.Props.Delegates
import Verif.Props.DelegatesExample
import Verif.Props.Depth
import Verif.Props.Editing
import Verif.Props.EditingExample
import Verif.Props.Effects
import Verif.Props.Elsewhere
import Verif.Props.EndToEnd
import Verif.Props.EndToEndExample
import Verif.Props.Ephemeral
import Verif.Props.Errors
import Verif.Props.ErrorsClient
import Verif.Props.Escapes
import Verif.Props.Exhaustion
import Verif.Props.ExhaustionMade
import Verif.Props.Fetching
import Verif.Props.FileStore
import Verif.Props.FileSystem
import Verif.Props.FileSystemExample
import Verif.Props.Formats
import Verif.Props.Grammar
import Verif.Props.Hex
import Verif.Props.Http
import Verif.Props.JsonTotal
import Verif.Props.JsonTotalExample
import Verif.Props.KeyForms
import Verif.Props.KeyIds
import Verif.Props.KeyOrder
import Verif.Props.Keyholders
import Verif.Props.Live
import Verif.Props.LiveMade
import Verif.Props.Lookup
import Verif.Props.Mirror
import Verif.Props.MirrorClient
import Verif.Props.MirrorExample
import Verif.Props.Named
import Verif.Props.Nesting
import Verif.Props.NestingExample
import Verif.Props.NewClient
import Verif.Props.OneRole
import Verif.Props.Orders
import Verif.Props.Patchy
import Verif.Props.Paths
import Verif.Props.Planted
import Verif.Props.PlantedExample
import Verif.Props.Pretty
import Verif.Props.PrettyExample
import Verif.Props.PrivateKeys
import Verif.Props.Publish
import Verif.Props.PublishExample
import Verif.Props.Publishing
import Verif.Props.Readers
import Verif.Props.Recovery
import Verif.Props.Release
import Verif.Props.ReleaseExample
import Verif.Props.Repeated
import Verif.Props.Reproducible
import Verif.Props.RolePaths
import Verif.Props.Rollback
import Verif.Props.RootEnd
import Verif.Props.Rotating
import Verif.Props.RoundTrip
import Verif.Props.Searches
import Verif.Props.Separation
import Verif.Props.Settings
import Verif.Props.Sharing
import Verif.Props.Shims
import Verif.Props.ShimsExample
import Verif.Props.Signed
import Verif.Props.Signing
import Verif.Props.SigningExample
import Verif.Props.Terminating
import Verif.Props.TufHistory
import Verif.Props.TufRules
import Verif.Props.Unknown
import Verif.Props.UpdateWork
import Verif.Props.Verify
import Verif.Props.Withdrawn
import Verif.Props.WithdrawnMade
import Verif.Props.Work
import Verif.Props.WorkExample
import Verif.Spec.Adversary
import Verif.Spec.Agreement
import Verif.Spec.Anchored
import Verif.Spec.Authors
import Verif.Spec.Base64
import Verif.Spec.Bitrate
import Verif.Spec.Builders
import Verif.Spec.Calendar
import Verif.Spec.Chunks
import Verif.Spec.Client
import Verif.Spec.ClientTargets
import Verif.Spec.ClientWorld
import Verif.Spec.Clocks
import Verif.Spec.Config
import Verif.Spec.Copy
import Verif.Spec.Covering
import Verif.Spec.DateTexts
import Verif.Spec.Decoded
import Verif.Spec.Delegates
import Verif.Spec.Der
import Verif.Spec.During
import Verif.Spec.Editing
import Verif.Spec.Effects
import Verif.Spec.Elsewhere
import Verif.Spec.Ephemeral
import Verif.Spec.Errors
import Verif.Spec.Escapes
import Verif.Spec.Exhaustion
import Verif.Spec.ExhaustionMade
import Verif.Spec.FilePath
import Verif.Spec.Grammar
import Verif.Spec.Hex
import Verif.Spec.History
import Verif.Spec.Http
import Verif.Spec.Json
import Verif.Spec.KeyForms
import Verif.Spec.Keyholders
import Verif.Spec.Keys
import Verif.Spec.Layout
import Verif.Spec.Live
import Verif.Spec.LiveMade
import Verif.Spec.Lookup
import Verif.Spec.Mirror
import Verif.Spec.Named
import Verif.Spec.OneRole
import Verif.Spec.Orders
import Verif.Spec.Patchy
import Verif.Spec.Planted
import Verif.Spec.Published
import Verif.Spec.Publishing
import Verif.Spec.PublishingWorld
import Verif.Spec.Readers
import Verif.Spec.Recovery
import Verif.Spec.Repeated
import Verif.Spec.Reproducible
import Verif.Spec.Restart
import Verif.Spec.Rollback
import Verif.Spec.RootEnd
import Verif.Spec.RoundTrip
import Verif.Spec.Searches
import Verif.Spec.Settings
import Verif.Spec.Sharing
import Verif.Spec.Signed
import Verif.Spec.Storage
import Verif.Spec.Toy
import Verif.Spec.Trust
import Verif.Spec.TufRules
import Verif.Spec.TufWorld
import Verif.Spec.Unknown
import Verif.Spec.UpdateWork
import Verif.Spec.WF
import Verif.Spec.Withdrawn
import Verif.Spec.WithdrawnMade
import Verif.Spec.Work

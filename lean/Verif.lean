import Verif.Props.OrdersRanges
import Verif.Props.Successor
import Verif.Props.Encoding
import Verif.Props.Stream
import Verif.Props.Relative
import Verif.Props.RelativeAreas
import Verif.Props.RelativeArea2
import Verif.Props.RelativeRanges
import Verif.Lemmas.RangeEnd
import Verif.Lemmas.AreaSubspace
import Verif.Props.AreaSubspace
import Verif.Props.RangeStart
import Verif.Props.KdTree
import Verif.Props.Storage
import Verif.Props.Payload
import Verif.Props.Listing
import Verif.Props.Store
import Verif.Props.Restart
import Verif.Props.Limits
import Verif.Props.FullEnd
import Verif.Props.StoreAuth
import Verif.Props.StoreFiles
import Verif.Props.StoreMore
import Verif.Props.App
import Verif.Props.Handles
import Verif.Props.Queue
import Verif.Props.Finders
import Verif.Props.Reconcile
import Verif.Lemmas.TypedText
import Verif.Props.TypedText
import Verif.Props.Transfer
import Verif.Model.Messages
import Verif.Spec.Messages
import Verif.Lemmas.Messages
import Verif.Props.Messages
import Verif.Props.MessagesData
import Verif.Lemmas.MessagesArea
import Verif.Props.MessagesArea
import Verif.Props.MessagesSetup
import Verif.Props.MessagesReconciliation
import Verif.Model.MessageLoop
import Verif.Spec.MessageLoop
import Verif.Props.MessageLoop
import Verif.Model.GrowingBytes
import Verif.Spec.GrowingBytes
import Verif.Lemmas.GrowingBytes
import Verif.Props.GrowingBytes
import Verif.Props.Transport
import Verif.Props.Messenger
import Verif.Spec.PropsApp
import Verif.Spec.PropsFinders
import Verif.Spec.PropsMessagesData
import Verif.Spec.PropsPayload
import Verif.Spec.PropsReconcile
import Verif.Spec.PropsRelativeAreas
import Verif.Spec.PropsStorage
import Verif.Spec.PropsStore
import Verif.Spec.PropsStoreAuth
import Verif.Spec.PropsStoreFiles
import Verif.Lemmas.PropsApp
import Verif.Lemmas.PropsFinders
import Verif.Lemmas.PropsHandles
import Verif.Lemmas.PropsMessageLoop
import Verif.Lemmas.PropsMessages
import Verif.Lemmas.PropsMessagesData
import Verif.Lemmas.PropsMessagesReconciliation
import Verif.Lemmas.PropsMessagesSetup
import Verif.Lemmas.PropsPayload
import Verif.Lemmas.PropsReconcile
import Verif.Lemmas.PropsRelative
import Verif.Lemmas.PropsRelativeArea2
import Verif.Lemmas.PropsRelativeAreas
import Verif.Lemmas.PropsRelativeRanges
import Verif.Lemmas.PropsStorage
import Verif.Lemmas.PropsStore
import Verif.Lemmas.PropsStoreAuth
import Verif.Lemmas.PropsStoreFiles
import Verif.Lemmas.PropsTransfer
import Verif.Model.Transport
import Verif.Spec.Transport
import Verif.Lemmas.Transport
import Verif.Lemmas.PropsTransport
import Verif.Model.Messenger
import Verif.Spec.Messenger
import Verif.Lemmas.PropsMessenger
import Verif.Model.Pai
import Verif.Spec.Pai
import Verif.Lemmas.PropsPai
import Verif.Props.Pai
import Verif.Model.Commands
import Verif.Spec.Commands
import Verif.Lemmas.PropsCommands
import Verif.Props.Commands
import Verif.Model.Reconciler
import Verif.Spec.Reconciler
import Verif.Lemmas.PropsReconciler
import Verif.Props.Reconciler
import Verif.Model.Announcer
import Verif.Spec.Announcer
import Verif.Lemmas.PropsAnnouncer
import Verif.Props.Announcer
import Verif.Spec.Content
import Verif.Lemmas.Content
import Verif.Props.Content
import Verif.Model.DataSender
import Verif.Spec.DataSender
import Verif.Lemmas.PropsDataSender
import Verif.Props.DataSender
import Verif.Model.Helpers
import Verif.Lemmas.PropsHelpers
import Verif.Props.Helpers
import Verif.Model.Emitters
import Verif.Spec.Emitters
import Verif.Lemmas.PropsEmitters
import Verif.Props.Emitters
import Verif.Model.Categories
import Verif.Spec.Categories
import Verif.Props.Categories
import Verif.Spec.FileNames
import Verif.Lemmas.FileNames
import Verif.Props.FileNames
import Verif.Model.Session
import Verif.Lemmas.Session
import Verif.Props.StoreQueries
import Verif.Props.Session
import Verif.Spec.PropsStoreKept
import Verif.Lemmas.PropsStoreKept
import Verif.Props.StoreKept
import Verif.Model.Concurrent
import Verif.Spec.Concurrent
import Verif.Lemmas.Concurrent
import Verif.Lemmas.PropsConcurrent
import Verif.Lemmas.PropsConcurrentFiles
import Verif.Props.Concurrent
import Verif.Lemmas.ConcurrentAlways
import Verif.Props.ConcurrentAlways
import Verif.Props.ConcurrentCounted
import Verif.Model.Turns
import Verif.Spec.Turns
import Verif.Lemmas.Turns
import Verif.Lemmas.TurnsFiles
import Verif.Lemmas.TurnsShape
import Verif.Props.Turns
import Verif.Props.TurnsPayload
import Verif.Model.Crash
import Verif.Spec.Crash
import Verif.Lemmas.Crash
import Verif.Lemmas.CrashPart
import Verif.Lemmas.CrashReplaced
import Verif.Lemmas.PropsCrash
import Verif.Props.Crash
import Verif.Lemmas.CrashAlways
import Verif.Props.CrashAlways
import Verif.Props.CrashReplaced
import Verif.Lemmas.CrashWithin
import Verif.Props.CrashWithin
import Verif.Spec.Malformed
import Verif.Lemmas.Malformed
import Verif.Lemmas.PropsMalformed
import Verif.Props.Malformed
import Verif.Spec.Tracker
import Verif.Lemmas.PropsTracker
import Verif.Props.Tracker
import Verif.Lemmas.PropsSubspaces
import Verif.Spec.InvalidPaths
import Verif.Lemmas.PropsInvalidPaths
import Verif.Lemmas.PropsForged
import Verif.Props.Subspaces
import Verif.Spec.Relative
import Verif.Lemmas.StreamExact
import Verif.Spec.Session
import Verif.Lemmas.SessionBytes
import Verif.Props.SessionBytes
import Verif.Model.Iterator
import Verif.Lemmas.Iterator
import Verif.Props.Iterator
import Verif.Model.Schemes
import Verif.Lemmas.Schemes
import Verif.Props.Schemes
import Verif.Model.SharedMemory
import Verif.Lemmas.SharedMemory
import Verif.Props.SharedMemory
import Verif.Model.Staging
import Verif.Spec.Staging
import Verif.Lemmas.Staging
import Verif.Props.Staging
import Verif.Model.RelativeErrors
import Verif.Lemmas.RelativeErrors
import Verif.Spec.Errors
import Verif.Lemmas.PropsErrors
import Verif.Props.Errors
import Verif.Model.Races
import Verif.Lemmas.PropsRaces
import Verif.Props.Races
import Verif.Spec.HandlePairs
import Verif.Lemmas.PropsHandlePairs
import Verif.Props.HandlePairs
import Verif.Lemmas.PropsInjective
import Verif.Props.Injective
import Verif.Model.EntriesFile
import Verif.Spec.EntriesFile
import Verif.Lemmas.PropsEntriesFile
import Verif.Props.EntriesFile
import Verif.Spec.ControlLayout
import Verif.Lemmas.PropsControlLayout
import Verif.Props.ControlLayout
import Verif.Spec.EntryLayout
import Verif.Lemmas.PropsEntryLayout
import Verif.Props.EntryLayout
import Verif.Spec.MessageLayout
import Verif.Lemmas.PropsMessageLayout
import Verif.Props.MessageLayout
import Verif.Spec.Notebook
import Verif.Lemmas.PropsNotebook
import Verif.Props.Notebook
import Verif.Model.IngesterCalls
import Verif.Spec.IngesterCalls
import Verif.Lemmas.IngesterCalls
import Verif.Props.IngesterCalls
import Verif.Spec.Handles
import Verif.Spec.Json
import Verif.Spec.Limits
import Verif.Spec.Wgps
import Verif.Spec.StoreOps
import Verif.Spec.Order
import Verif.Spec.Store
import Verif.Spec.Utf8
import Verif.Lemmas.Prefix
import Verif.Lemmas.App
import Verif.Lemmas.Successor
import Verif.Lemmas.History
import Verif.Lemmas.Handles
import Verif.Lemmas.Listing
import Verif.Lemmas.Relative
import Verif.Lemmas.Paths
import Verif.Lemmas.Json
import Verif.Lemmas.JsonUnique
import Verif.Lemmas.Limits
import Verif.Lemmas.Base64
import Verif.Lemmas.Fingerprints
import Verif.Lemmas.PropsLimits
import Verif.Lemmas.Reads
import Verif.Lemmas.Queue
import Verif.Lemmas.StoreRun
import Verif.Lemmas.Kv
import Verif.Lemmas.Storage
import Verif.Lemmas.Utf8
import Verif.Lemmas.Files
import Verif.Lemmas.Slices
import Verif.Lemmas.Ranges
import Verif.Lemmas.PropsFullEnd
import Verif.Lemmas.Order
import Verif.Lemmas.Encoding
import Verif.Lemmas.Ingest
import Verif.Lemmas.Stream
import Verif.Lemmas.KdTree
import Verif.Lemmas.Store
import Verif.Lemmas.PropsFullComponent
import Verif.Model.Keys
import Verif.Model.App
import Verif.Model.Successor
import Verif.Model.Handles
import Verif.Model.Relative
import Verif.Model.Paths
import Verif.Model.Basic
import Verif.Model.Wgps
import Verif.Model.Areas
import Verif.Model.StoreRun
import Verif.Model.Kv
import Verif.Model.Slices
import Verif.Model.Ranges
import Verif.Model.GoMap
import Verif.Model.Order
import Verif.Model.Encoding
import Verif.Model.Stream
import Verif.Model.KdTree
import Verif.Model.Store
import Verif.Model.HandleCopies
import Verif.Spec.HandleCopies
import Verif.Lemmas.HandleCopies
import Verif.Props.HandleCopies
import Verif.Model.PayloadOffsets
import Verif.Spec.PayloadOffsets
import Verif.Lemmas.PayloadOffsets
import Verif.Props.PayloadOffsets
import Verif.Model.ClosedValues
import Verif.Spec.ClosedValues
import Verif.Lemmas.ClosedValues
import Verif.Props.ClosedValues
import Verif.Model.Faults
import Verif.Lemmas.Faults
import Verif.Lemmas.FaultsFiles
import Verif.Props.Faults
import Verif.Lemmas.FaultsCount
import Verif.Lemmas.FaultsErase
import Verif.Props.FaultsCount
import Verif.Props.FaultsErase
import Verif.Model.Scanner
import Verif.Spec.Scanner
import Verif.Lemmas.Scanner
import Verif.Props.Scanner
import Verif.Model.Places
import Verif.Spec.Places
import Verif.Lemmas.Places
import Verif.Lemmas.RangeInstant
import Verif.Lemmas.PlacesNotebook
import Verif.Props.Places

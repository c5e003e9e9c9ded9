import Verif.Base.Bytes
import Verif.Lemmas.Bytes
import Verif.Lemmas.Num
import Verif.Model.Path
import Verif.Spec.Path
import Verif.Props.Path
import Verif.Props.RangeHeader
import Verif.Props.AmzDate
import Verif.Props.CopySource
import Verif.Props.Authorization
import Verif.Props.Encoding
import Verif.Props.Errors
import Verif.Props.Ordered
import Verif.Props.Auth
import Verif.Props.BytesStream
import Verif.Props.Xml
import Verif.Props.Confine
import Verif.Props.Address
import Verif.Props.Frame
import Verif.Props.Get
import Verif.Props.Put
import Verif.Props.Crash
import Verif.Props.DelCopy
import Verif.Props.Listing
import Verif.Props.Buckets
import Verif.Props.Multipart
import Verif.Props.Etag
import Verif.Props.Concurrent
import Verif.Props.History
import Verif.Props.Chunked
import Verif.Props.Form
import Verif.Model.Service
import Verif.Model.Dispatch
import Verif.Spec.SigV4
import Verif.Lemmas.SigV4
import Verif.Lemmas.Service
import Verif.Lemmas.Admit
import Verif.Lemmas.Canonical
import Verif.Lemmas.Protect
import Verif.Props.SampleHttp
import Verif.Props.Access
import Verif.Props.Signature
import Verif.Lemmas.OpFails
import Verif.Spec.Ops
import Verif.Lemmas.Dispatch
import Verif.Lemmas.Handler
import Verif.Lemmas.Sound
import Verif.Lemmas.Served
import Verif.Props.Dispatch
import Verif.Lemmas.Mix
import Verif.Props.SameObject
import Verif.Props.Payload
import Verif.Props.Folder
import Verif.Model.Response
import Verif.Model.Deserialize
import Verif.Model.Time
import Verif.Spec.XmlDoc
import Verif.Spec.Response
import Verif.Spec.Time
import Verif.Lemmas.XmlDoc
import Verif.Lemmas.Response
import Verif.Lemmas.Time
import Verif.Props.Response
import Verif.Props.Time
import Verif.Spec.Client
import Verif.Props.Client
import Verif.Spec.XmlBody
import Verif.Props.SampleXml
import Verif.Lemmas.XmlBody
import Verif.Props.XmlBody
import Verif.Spec.Streaming
import Verif.Lemmas.Streaming
import Verif.Props.Streaming
import Verif.Spec.Isolated
import Verif.Lemmas.Isolated
import Verif.Props.Isolated
import Verif.Lemmas.Racing
import Verif.Props.Racing
import Verif.Model.Hash
import Verif.Lemmas.Hash
import Verif.Props.Conformance
import Verif.Spec.Malformed
import Verif.Props.Malformed
import Verif.Props.Json
import Verif.Lemmas.Crawl
import Verif.Props.Crawl
import Verif.Spec.Fair
import Verif.Lemmas.Fair
import Verif.Lemmas.Answered
import Verif.Props.Fair
import Verif.Spec.Session
import Verif.Lemmas.Session
import Verif.Props.Session
import Verif.Spec.Place
import Verif.Lemmas.Place
import Verif.Props.Place
import Verif.Model.Binary
import Verif.Spec.Binary
import Verif.Props.Binary
import Verif.Spec.Base64
import Verif.Lemmas.Base64
import Verif.Props.ConformanceService
import Verif.Spec.Seal
import Verif.Lemmas.Seal
import Verif.Props.Seal
import Verif.Model.Fault
import Verif.Lemmas.Fault
import Verif.Lemmas.Honest
import Verif.Lemmas.HonestRead
import Verif.Lemmas.FaultCrash
import Verif.Spec.Fault
import Verif.Props.Fault
import Verif.Spec.Life
import Verif.Lemmas.Life
import Verif.Props.Life
import Verif.Model.Clock
import Verif.Spec.Clock
import Verif.Lemmas.Clock
import Verif.Props.Clock
import Verif.Spec.WebLife
import Verif.Lemmas.WebLife
import Verif.Props.WebLife
import Verif.Spec.Again
import Verif.Lemmas.Again
import Verif.Lemmas.Retry
import Verif.Lemmas.InFlight
import Verif.Props.Again
import Verif.Lemmas.RetryCopy
import Verif.Lemmas.RetryDelete
import Verif.Props.Retried
import Verif.Spec.Power
import Verif.Spec.Once
import Verif.Lemmas.Power
import Verif.Lemmas.Once
import Verif.Props.Power
import Verif.Props.Once
import Verif.Spec.Presign
import Verif.Props.Presign
import Verif.Spec.Secret
import Verif.Props.Secret
import Verif.Spec.Unread
import Verif.Props.Unread
import Verif.Spec.Paging
import Verif.Props.Paging
import Verif.Props.Listed
import Verif.Spec.Effort
import Verif.Lemmas.Effort
import Verif.Props.Effort
import Verif.Spec.Packets
import Verif.Props.Packets
import Verif.Spec.Replay
import Verif.Props.Replay
import Verif.Spec.Root
import Verif.Lemmas.Root
import Verif.Props.Root
import Verif.Spec.Moved
import Verif.Lemmas.Moved
import Verif.Lemmas.MovedOps
import Verif.Lemmas.MovedStart
import Verif.Props.Moved
import Verif.Spec.Accounted
import Verif.Lemmas.Accounted
import Verif.Props.Accounted
import Verif.Spec.Concerns
import Verif.Lemmas.Concerns
import Verif.Props.Concerns
import Verif.Spec.Moment
import Verif.Lemmas.Moment
import Verif.Props.Moment
import Verif.Model.Sweep
import Verif.Spec.Sweep
import Verif.Lemmas.Sweep
import Verif.Props.Sweep
import Verif.Spec.Outsider
import Verif.Lemmas.Outsider
import Verif.Props.Outsider
import Verif.Spec.Parts
import Verif.Props.Parts
import Verif.Model.Pieces
import Verif.Spec.Pieces
import Verif.Lemmas.Pieces
import Verif.Props.Pieces
import Verif.Model.Looks
import Verif.Spec.Looks
import Verif.Lemmas.Looks
import Verif.Props.Looks
import Verif.Spec.Machine
import Verif.Lemmas.Machine
import Verif.Props.Machine
import Verif.Spec.MachineClient
import Verif.Props.MachineClient
import Verif.Spec.MachineListing
import Verif.Props.MachineListing
import Verif.Spec.MachineRounds
import Verif.Lemmas.MachineRounds
import Verif.Props.MachineRounds
import Verif.Spec.NewFolder
import Verif.Lemmas.NewFolder
import Verif.Props.NewFolder
import Verif.Props.UploadTree
import Verif.Spec.Doubt
import Verif.Lemmas.Doubt
import Verif.Props.Doubt
import Verif.Props.DoubtListing
import Verif.Spec.MachineFolders
import Verif.Lemmas.MachineFolders
import Verif.Props.MachineFolders
import Verif.Spec.FolderUse
import Verif.Lemmas.FolderUse
import Verif.Props.FolderUse
import Verif.Spec.FoldersAtOnce
import Verif.Lemmas.FoldersAtOnce
import Verif.Props.FoldersAtOnce
import Verif.Spec.FoldersBeside
import Verif.Lemmas.FoldersBeside
import Verif.Props.FoldersBeside
import Verif.Spec.Undisturbed
import Verif.Lemmas.Undisturbed
import Verif.Props.Undisturbed
import Verif.Lemmas.DeletedBeside
import Verif.Props.DeletedBeside
import Verif.Spec.Making
import Verif.Lemmas.Making
import Verif.Props.Making
import Verif.Spec.FolderMade
import Verif.Lemmas.FolderMade
import Verif.Props.FolderMade
import Verif.Spec.Retry
import Verif.Lemmas.Retried
import Verif.Props.RetriedWeb

import Verif.Base.Bytes
import Verif.Base.Nom
import Verif.Base.Outcome
import Verif.Base.Unicode
import Verif.Model.Accept
import Verif.Model.App
import Verif.Model.Codec
import Verif.Model.Control
import Verif.Model.Database
import Verif.Model.DbField
import Verif.Model.DbMessage
import Verif.Model.Flow
import Verif.Model.Inbox
import Verif.Model.Keepalive
import Verif.Model.Launch
import Verif.Model.LibServer
import Verif.Model.Library
import Verif.Model.Linger
import Verif.Model.Log
import Verif.Model.Memory
import Verif.Model.Network
import Verif.Model.Nfs
import Verif.Model.Overlap
import Verif.Model.Pipes
import Verif.Model.Players
import Verif.Model.Rpc
import Verif.Model.RpcServer
import Verif.Model.Scan
import Verif.Model.Stall
import Verif.Model.Startup
import Verif.Model.Status
import Verif.Model.StatusTimed
import Verif.Model.Stream
import Verif.Model.System
import Verif.Model.Timed
import Verif.Model.Waveform
import Verif.Model.Workers
import Verif.Spec.Accept
import Verif.Spec.Again
import Verif.Spec.App
import Verif.Spec.Asked
import Verif.Spec.Browse
import Verif.Spec.Calls
import Verif.Spec.Catalog
import Verif.Spec.ChunkAsks
import Verif.Spec.Codec
import Verif.Spec.Control
import Verif.Spec.DbPanic
import Verif.Spec.DbValues
import Verif.Spec.DbWire
import Verif.Spec.DbWrite
import Verif.Spec.Delivery
import Verif.Spec.Descriptors
import Verif.Spec.EndToEnd
import Verif.Spec.Endless
import Verif.Spec.Exhaustion
import Verif.Spec.Explained
import Verif.Spec.Files
import Verif.Spec.Flow
import Verif.Spec.Inbox
import Verif.Spec.Keepalive
import Verif.Spec.Launch
import Verif.Spec.Linger
import Verif.Spec.Log
import Verif.Spec.Memory
import Verif.Spec.Network
import Verif.Spec.Nfs
import Verif.Spec.NfsEnd
import Verif.Spec.Numbers
import Verif.Spec.Overlap
import Verif.Spec.OverlapTrue
import Verif.Spec.OverlapUse
import Verif.Spec.Packets
import Verif.Spec.Pipes
import Verif.Spec.Players
import Verif.Spec.Presence
import Verif.Spec.Replies
import Verif.Spec.Restart
import Verif.Spec.Rpc
import Verif.Spec.RpcServer
import Verif.Spec.Scan
import Verif.Spec.Session
import Verif.Spec.Stall
import Verif.Spec.Startup
import Verif.Spec.Status
import Verif.Spec.StatusTimed
import Verif.Spec.Stream
import Verif.Spec.System
import Verif.Spec.Timed
import Verif.Spec.Traffic
import Verif.Spec.Volume
import Verif.Spec.Workers
import Verif.Lemmas.Accept
import Verif.Lemmas.Announced
import Verif.Lemmas.App
import Verif.Lemmas.AppStep
import Verif.Lemmas.Browse
import Verif.Lemmas.ChunkAnswer
import Verif.Lemmas.ChunkAsks
import Verif.Lemmas.Database
import Verif.Lemmas.DbCodec
import Verif.Lemmas.DbCut
import Verif.Lemmas.DbPanic
import Verif.Lemmas.DbRead
import Verif.Lemmas.DbReadIff
import Verif.Lemmas.DbWrite
import Verif.Lemmas.Endless
import Verif.Lemmas.Keepalive
import Verif.Lemmas.Launch
import Verif.Lemmas.LibServer
import Verif.Lemmas.Linked
import Verif.Lemmas.Log
import Verif.Lemmas.Nfs
import Verif.Lemmas.Overlap
import Verif.Lemmas.OverlapTrue
import Verif.Lemmas.OverlapUse
import Verif.Lemmas.Overtaken
import Verif.Lemmas.Packets
import Verif.Lemmas.Rpc
import Verif.Lemmas.RpcServer
import Verif.Lemmas.Safe
import Verif.Lemmas.Scan
import Verif.Lemmas.Session
import Verif.Lemmas.Somewhere
import Verif.Lemmas.Stall
import Verif.Lemmas.Status
import Verif.Lemmas.System
import Verif.Lemmas.Timed
import Verif.Lemmas.Workers
import Verif.Props.Accept
import Verif.Props.Again
import Verif.Props.Amid
import Verif.Props.Announced
import Verif.Props.App
import Verif.Props.Asked
import Verif.Props.Backlog
import Verif.Props.Calls
import Verif.Props.Chunks
import Verif.Props.Codec
import Verif.Props.Conformance
import Verif.Props.Control
import Verif.Props.Database
import Verif.Props.DbCodec
import Verif.Props.Delivery
import Verif.Props.Descriptors
import Verif.Props.Doom
import Verif.Props.EndToEnd
import Verif.Props.Endless
import Verif.Props.Exhaustion
import Verif.Props.Explained
import Verif.Props.Files
import Verif.Props.Flow
import Verif.Props.Folder
import Verif.Props.FolderRoot
import Verif.Props.Gap
import Verif.Props.Handles
import Verif.Props.Inbox
import Verif.Props.InboxExact
import Verif.Props.Intruder
import Verif.Props.Keepalive
import Verif.Props.Launch
import Verif.Props.LibServer
import Verif.Props.Library
import Verif.Props.Linger
import Verif.Props.Linked
import Verif.Props.Log
import Verif.Props.Memory
import Verif.Props.Network
import Verif.Props.Nfs
import Verif.Props.NfsEnd
import Verif.Props.Numbers
import Verif.Props.Overlap
import Verif.Props.OverlapTrue
import Verif.Props.OverlapUse
import Verif.Props.Overtaken
import Verif.Props.Packets
import Verif.Props.Pipes
import Verif.Props.Players
import Verif.Props.Presence
import Verif.Props.Rate
import Verif.Props.Replies
import Verif.Props.Restart
import Verif.Props.Rpc
import Verif.Props.RpcEncode
import Verif.Props.RpcServer
import Verif.Props.Scan
import Verif.Props.Session
import Verif.Props.Stall
import Verif.Props.Startup
import Verif.Props.Status
import Verif.Props.StatusExact
import Verif.Props.StatusTimed
import Verif.Props.Stream
import Verif.Props.System
import Verif.Props.Timed
import Verif.Props.Traffic
import Verif.Props.Unicode
import Verif.Props.Volume
import Verif.Props.Workers

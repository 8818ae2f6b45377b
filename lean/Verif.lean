import Verif.Model.Py
import Verif.Model.PBuffer
import Verif.Model.Struct
import Verif.Model.Element3
import Verif.Spec.Framing
import Verif.Spec.Elements
import Verif.Proofs.Py
import Verif.Proofs.PBuffer
import Verif.Proofs.Struct
import Verif.Proofs.Element3
import Verif.Proofs.Element3b
import Verif.Proofs.Element3c
import Verif.Props.Stream
import Verif.Props.Elements
import Verif.Model.Xact3
import Verif.Spec.Xact
import Verif.Spec.Interrupt
import Verif.Spec.Reply
import Verif.Props.Xact
import Verif.Props.Reply
import Verif.Props.CopyIn
import Verif.Props.Negotiation
import Verif.Props.Client
import Verif.Model.Itertools
import Verif.Props.Establish
import Verif.Props.Types
import Verif.Props.DateTime
import Verif.Props.Hstore
import Verif.Props.Numeric
import Verif.Props.Bytea
import Verif.Props.Bitwise
import Verif.Props.CopyMan
import Verif.Props.CopyManager
import Verif.Props.PgArray
import Verif.Props.Row
import Verif.Props.PgString
import Verif.Props.SqlSplit
import Verif.Props.PgPass
import Verif.Props.RiParse
import Verif.Props.Iri
import Verif.Props.ConfigFile2
import Verif.Props.DbApi
import Verif.Props.DbApiParams
import Verif.Props.ALock
import Verif.Props.NotifyMan
import Verif.Props.NotifyMan2
import Verif.Props.Transaction
import Verif.Props.DbApiConn
import Verif.Props.Settings
import Verif.Props.Settings2
import Verif.Props.Cursor
import Verif.Props.Fetch
import Verif.Props.Multi
import Verif.Props.Itertools
import Verif.Props.LoadRows
import Verif.Props.TypeIo
import Verif.Props.VersionString
import Verif.Props.Exceptions
import Verif.Props.Messages
import Verif.Props.ClientParams
import Verif.Props.ClientOpen
import Verif.Props.Connector
import Verif.Props.SymLib
import Verif.Props.SymBind
import Verif.Props.Lifecycle
import Verif.Spec.Status
import Verif.Proofs.Xact3f
import Verif.Proofs.Status
import Verif.Props.Status
import Verif.Model.CopyLoad
import Verif.Spec.CopyLoad
import Verif.Proofs.CopyLoad
import Verif.Proofs.CopyLoad2
import Verif.Proofs.CopyLoad3
import Verif.Proofs.CopyLoad4
import Verif.Proofs.CopyLoad5
import Verif.Proofs.CopyLoad6
import Verif.Proofs.CopyLoad7
import Verif.Props.CopyLoad
import Verif.Props.ReplyBatches
import Verif.Props.Statement
import Verif.Props.Prepare
import Verif.Props.SqlText
import Verif.Props.SqlText2
import Verif.Props.Procedure
import Verif.Model.Cluster
import Verif.Spec.Cluster
import Verif.Proofs.Cluster
import Verif.Proofs.Cluster2
import Verif.Proofs.Cluster3
import Verif.Proofs.Cluster4
import Verif.Props.Cluster
import Verif.Props.Cluster2
import Verif.Props.Cluster3
import Verif.Model.ClusterDrop
import Verif.Props.ClusterDrop
import Verif.Model.Encodings
import Verif.Props.Encodings
import Verif.Model.ClusterInit
import Verif.Props.ClusterInit
import Verif.Model.Temporal
import Verif.Props.Temporal
import Verif.Props.Temporal2
import Verif.Props.Temporal3
import Verif.Model.Installation
import Verif.Spec.Installation
import Verif.Props.Installation
import Verif.Props.Installation2
import Verif.Props.Installation3
import Verif.Model.NamedTuple
import Verif.Spec.NamedTuple
import Verif.Props.NamedTuple
import Verif.Model.Geometry
import Verif.Spec.Geometry
import Verif.Props.Geometry
import Verif.Model.Crypt
import Verif.Spec.Crypt
import Verif.Proofs.Crypt
import Verif.Proofs.Crypt2
import Verif.Proofs.Crypt3
import Verif.Proofs.Crypt4
import Verif.Props.Crypt
import Verif.Props.Installation4
import Verif.Model.CopyTo
import Verif.Spec.CopyTo
import Verif.Proofs.CopyTo
import Verif.Proofs.CopyTo2
import Verif.Proofs.CopyTo3
import Verif.Proofs.CopyTo4
import Verif.Proofs.CopyTo5
import Verif.Proofs.CopyTo6
import Verif.Proofs.CopyTo7
import Verif.Proofs.CopyTo8
import Verif.Props.CopyTo
import Verif.Props.CopyReceiver
import Verif.Props.Transfer
import Verif.Props.Manager
import Verif.Props.Async
import Verif.Props.Convert
import Verif.Props.RoundTrip
import Verif.Props.Marker
import Verif.Props.Describe
import Verif.Props.ElementText
import Verif.Props.DbApiMany
import Verif.Props.Security
import Verif.Model.UuidXml
import Verif.Spec.UuidXml
import Verif.Props.UuidXml
import Verif.Model.Handles
import Verif.Spec.Handles
import Verif.Proofs.Handles
import Verif.Props.Handles
import Verif.Props.Chunks
import Verif.Props.FloatTime
import Verif.Props.DotConf
import Verif.Props.IterNotifies
import Verif.Props.ReprBytes
import Verif.Props.ArrayCompare
import Verif.Props.BitSlice
import Verif.Props.Domains
import Verif.Props.Category
import Verif.Props.TemporalDestroy
import Verif.Props.Edges
import Verif.Props.PyCommand
import Verif.Props.Console
import Verif.Props.PgPython
import Verif.Props.Edges2
import Verif.Props.OptBuffer
import Verif.Props.OptElement3
import Verif.Props.OptXact3
import Verif.Props.OptStruct
import Verif.Props.OptFunctools
import Verif.Props.Edges3
import Verif.Props.OptWire
import Verif.Props.CursorArgs
import Verif.Props.FetchWire

import Verif.Py.Basic
import Verif.Model.Helpers
import Verif.Model.VarInt
import Verif.Model.Value
import Verif.Model.Codec
import Verif.Model.UUID
import Verif.Model.Float
import Verif.Model.Timestamp
import Verif.Model.Field
import Verif.Model.Dump
import Verif.Model.Load
import Verif.Model.Struct
import Verif.Model.Init
import Verif.Model.Class
import Verif.Spec.VarInt
import Verif.Proofs.VarInt
import Verif.Proofs.VarIntEncode
import Verif.Proofs.IntCodec
import Verif.Proofs.Fuel
import Verif.Proofs.FuelDump
import Verif.Props.VarInt
import Verif.Props.IntCodec
import Verif.Spec.Field
import Verif.Spec.Samples
import Verif.Proofs.Field
import Verif.Props.Field
import Verif.Spec.Struct
import Verif.Spec.History
import Verif.Proofs.Dict
import Verif.Proofs.StructDump
import Verif.Proofs.ToDict
import Verif.Proofs.StructLoad
import Verif.Props.StructDump
import Verif.Props.StructLoad
import Verif.Props.History
import Verif.Spec.Container
import Verif.Proofs.Container
import Verif.Props.Container
import Verif.Spec.Text
import Verif.Proofs.Codec
import Verif.Proofs.Text
import Verif.Proofs.UUID
import Verif.Props.Text
import Verif.Props.UUID
import Verif.Spec.Float
import Verif.Proofs.Float
import Verif.Proofs.FloatBits
import Verif.Proofs.Timestamp
import Verif.Props.Float
import Verif.Props.Timestamp
import Verif.Spec.Class
import Verif.Proofs.Class
import Verif.Props.Class
import Verif.Model.ClassHeap
import Verif.Proofs.ClassHeap
import Verif.Props.ClassHeap
import Verif.Spec.Independent
import Verif.Proofs.Independent
import Verif.Props.PartialDump
import Verif.Spec.Equality
import Verif.Proofs.Equality
import Verif.Props.Equality
import Verif.Spec.Size
import Verif.Proofs.Size
import Verif.Props.Size
import Verif.Spec.Locality
import Verif.Proofs.Locality
import Verif.Props.Locality
import Verif.Spec.RoundTrip
import Verif.Proofs.RoundTrip
import Verif.Spec.Schema
import Verif.Proofs.Schema
import Verif.Props.RoundTrip
import Verif.Spec.Canonical
import Verif.Proofs.Canonical
import Verif.Props.Canonical
import Verif.Spec.Robust
import Verif.Proofs.Robust
import Verif.Props.Robust
import Verif.Spec.Construct
import Verif.Proofs.Construct
import Verif.Props.Construct
import Verif.Spec.Records
import Verif.Props.Records
import Verif.Spec.Frame
import Verif.Proofs.Frame
import Verif.Props.Frame
import Verif.Spec.Inherit
import Verif.Proofs.Inherit
import Verif.Props.Inherit
import Verif.Model.Equality
import Verif.Model.Proxy
import Verif.Spec.Proxy
import Verif.Props.Proxy
import Verif.Spec.Context
import Verif.Proofs.Context
import Verif.Props.Context
import Verif.Spec.Halting
import Verif.Proofs.Halting
import Verif.Props.Halting
import Verif.Proofs.Numbers
import Verif.Props.Numbers
import Verif.Spec.Offset
import Verif.Proofs.Offset
import Verif.Props.Offset
import Verif.Spec.DumpErrors
import Verif.Proofs.DumpErrors
import Verif.Props.DumpErrors
import Verif.Spec.Annotate
import Verif.Props.Annotate
import Verif.Model.Sink
import Verif.Spec.Sink
import Verif.Proofs.Sink
import Verif.Props.Sink
import Verif.Conformance.Util
import Verif.Conformance.Varints
import Verif.Conformance.Base
import Verif.Conformance.Numeric
import Verif.Conformance.Stringlike
import Verif.Conformance.Containers
import Verif.Conformance.Structures
import Verif.Conformance.Annotated
import Verif.Conformance.Examples
import Verif.Spec.Sentinel
import Verif.Proofs.Sentinel
import Verif.Props.Sentinel
import Verif.Spec.Optional
import Verif.Proofs.Optional
import Verif.Props.Optional
import Verif.Props.Resave
import Verif.Props.Blame
import Verif.Props.Position
import Verif.Props.Objects
import Verif.Props.Source
import Verif.Props.Meter
import Verif.Props.LocalTime
import Verif.Props.OptionalRecords
import Verif.Props.PartialLoad
import Verif.Props.Order
import Verif.Props.Iterator
import Verif.Props.CeilFloat
import Verif.Props.Schedule
import Verif.Props.Rebuild
import Verif.Spec.Memory
import Verif.Proofs.Memory
import Verif.Props.Memory
import Verif.Props.Live
import Verif.Props.Calls
import Verif.Props.Formats
import Verif.Props.Stale
import Verif.Spec.Reorder
import Verif.Proofs.Reorder
import Verif.Props.Reorder
import Verif.Model.Bom
import Verif.Spec.Bom
import Verif.Proofs.Bom
import Verif.Props.Bom
import Verif.Model.Copy
import Verif.Spec.Copy
import Verif.Proofs.Copy
import Verif.Props.Copy
import Verif.Model.LiveLoad
import Verif.Spec.LiveLoad
import Verif.Proofs.LiveLoad
import Verif.Props.LiveLoad
import Verif.Props.NullRepr
import Verif.Spec.Reload
import Verif.Proofs.Reload
import Verif.Props.Reload
import Verif.Props.ReloadOptional
import Verif.Spec.Work
import Verif.Proofs.Work
import Verif.Props.Work
import Verif.Spec.Table
import Verif.Proofs.Table
import Verif.Props.Table
import Verif.Spec.Portable
import Verif.Proofs.Portable
import Verif.Props.Portable
import Verif.Spec.Checksum
import Verif.Props.Checksum
import Verif.Model.Depth
import Verif.Spec.Depth
import Verif.Props.Depth
import Verif.Spec.Versions
import Verif.Proofs.Versions
import Verif.Props.Versions
import Verif.Spec.PartialRoundTrip
import Verif.Proofs.Runs
import Verif.Props.PartialRoundTrip
import Verif.Spec.Envelope
import Verif.Proofs.Envelope
import Verif.Props.Envelope
import Verif.Spec.Journal
import Verif.Proofs.Journal
import Verif.Props.Journal
import Verif.Spec.Packets
import Verif.Props.Packets
import Verif.Proofs.Placed
import Verif.Props.AnnotateSub
import Verif.Spec.Convert
import Verif.Props.Convert
import Verif.Spec.Tagged
import Verif.Props.Tagged
import Verif.Model.Modify
import Verif.Spec.Modify
import Verif.Props.Modify
import Verif.Spec.Chunks
import Verif.Props.Chunks
import Verif.Spec.Stack
import Verif.Proofs.Stack
import Verif.Props.Stack
import Verif.Model.Version
import Verif.Proofs.Version
import Verif.Props.Version
import Verif.Spec.Append
import Verif.Proofs.Append
import Verif.Props.Append
import Verif.Spec.Group
import Verif.Proofs.Group
import Verif.Props.Group
import Verif.Spec.Bare
import Verif.Proofs.Bare
import Verif.Proofs.Split
import Verif.Props.Bare
import Verif.Spec.Renaming
import Verif.Proofs.Renaming
import Verif.Proofs.RenamingDump
import Verif.Proofs.RenamingLoad
import Verif.Props.Renaming
import Verif.Spec.Unroll
import Verif.Proofs.Unroll
import Verif.Props.Unroll
import Verif.Spec.Halves
import Verif.Proofs.Halves
import Verif.Props.Halves
import Verif.Props.AppendDump
import Verif.Spec.Permute
import Verif.Proofs.Permute
import Verif.Props.Permute
import Verif.Spec.Turn
import Verif.Proofs.Turn
import Verif.Proofs.TurnDecl
import Verif.Props.Turn
import Verif.Spec.Flip
import Verif.Proofs.Flip
import Verif.Props.Flip
import Verif.Spec.Recode
import Verif.Proofs.Recode
import Verif.Props.Recode

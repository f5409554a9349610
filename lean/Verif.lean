import Verif.Props.Hash
import Verif.Props.Bucket
import Verif.Props.Table
import Verif.Props.Serial
import Verif.Props.Compact
import Verif.Props.Select
import Verif.Props.Group
import Verif.Props.GroupSerial
import Verif.Props.Overflow
import Verif.Overflow.ArraySerial
import Verif.Props.ArraySerial
import Verif.Props.OverflowBack
import Verif.Props.Keysplit
import Verif.Props.BucketTable
import Verif.Props.Own
import Verif.Props.OwnCompact
import Verif.Props.OwnGroup
import Verif.Props.Iterator
import Verif.Props.Limits
import Verif.Table.Sweep
import Verif.Props.Sweep
import Verif.Props.OwnBt
import Verif.Bucket.Debug
import Verif.Bucket.DebugSerial
import Verif.Hash.Debug
import Verif.Sep.Debug
import Verif.Sep.DebugTable
import Verif.Sep.DebugSerial
import Verif.Sep.DebugFiles
import Verif.Props.Debug
import Verif.Props.DebugSerial
import Verif.Props.DebugFiles
import Verif.Compact.Debug
import Verif.Compact.DebugLemmas
import Verif.Compact.DebugTable
import Verif.Table.InsertFail
import Verif.Table.FitRun
import Verif.Props.DebugCompact
import Verif.Group.Debug
import Verif.Group.DebugCore
import Verif.Group.DebugBorder
import Verif.Group.DebugGroup
import Verif.Group.DebugLemmas
import Verif.Group.DebugTable
import Verif.Props.DebugGroup
import Verif.Props.DebugBucketTable
import Verif.Table.Keep
import Verif.Bucket.Memory
import Verif.Sep.Memory
import Verif.Sep.Size
import Verif.Props.Memory
import Verif.Spec.Tables
import Verif.Table.Several
import Verif.Props.Several
import Verif.Props.Stable
import Verif.Sep.Format
import Verif.Group.Format
import Verif.Props.Format
import Verif.Props.Forward
import Verif.Sep.FormatRead
import Verif.Props.FormatRead
import Verif.Table.Simulate
import Verif.Group.Determinate
import Verif.Props.GroupBytes
import Verif.Group.FormatRead
import Verif.Props.GroupFormatRead
import Verif.Group.DebugSerial
import Verif.Group.DebugRelax
import Verif.Props.DebugGroupSerial
import Verif.Group.DebugFiles
import Verif.Props.DebugGroupFiles
import Verif.Compact.Wrapper
import Verif.Props.Wrapper
import Verif.Keysplit.Objects
import Verif.Props.KeysplitOwn
import Verif.Reader
import Verif.Props.Truncated
import Verif.Table.Agree
import Verif.Overflow.Junk
import Verif.Props.ArrayTable
import Verif.Props.ArrayTableSerial
import Verif.Group.SerialOv
import Verif.Table.Crowd
import Verif.Props.Crowd
import Verif.Props.ArrayGroupSerial
import Verif.Props.DebugOverflow
import Verif.Props.DebugIterator
import Verif.Props.FileSize
import Verif.Props.DebugArray
import Verif.Props.DebugArraySerial
import Verif.Props.OwnAo
import Verif.Props.Files
import Verif.Props.MapTableSerial
import Verif.Props.Cost
import Verif.Props.One
import Verif.Props.StableOv
import Verif.Props.Bits
import Verif.Props.BitsG
import Verif.Props.SizeOv
import Verif.Props.MapFile
import Verif.Props.CapOv
import Verif.Props.SizeArr
import Verif.Props.DebugMapFile
import Verif.Props.DebugGroupMapFile
import Verif.Props.DebugStable
import Verif.Table.LoopFit
import Verif.Props.DebugSweep
import Verif.Props.OverflowLoops
import Verif.Table.UpdateOv
import Verif.Props.UpdateOv
import Verif.Props.ArrayLoops
import Verif.Props.ArrayUpdate
import Verif.Props.ArrayStable
import Verif.Props.DebugSeveral
import Verif.Props.DebugClear

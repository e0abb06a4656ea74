import Verif.ArrayProps
import Verif.LinkedListProps
import Verif.PListProps
import Verif.ListMemProps
import Verif.PListFailProps
import Verif.HashEntryProps
import Verif.BitTricksProps
import Verif.FloatPow2Props
import Verif.RangeProps
import Verif.SwapProps
import Verif.BitsProps
import Verif.EnumerableProps
import Verif.RandomProps
import Verif.HashProps
import Verif.HashMapProps
import Verif.HashMapWalkProps
import Verif.BigIntProps
import Verif.BigIntTextProps
import Verif.BigIntFastProps
import Verif.BigIntStrProps
import Verif.BigIntAliasProps
import Verif.DecimalProps
import Verif.DataProps
import Verif.TaskProps
import Verif.TaskQueueProps
import Verif.AlignProps
import Verif.IDGenProps
import Verif.ConcBufferProps
import Verif.IndexBufferProps
import Verif.SwapBufferProps
import Verif.CircBufferProps
import Verif.ConcPoolProps
import Verif.PoolAllocProps
import Verif.RefCountProps
import Verif.ZoneProps
import Verif.CollectionProps
import Verif.DictionaryProps
import Verif.LazyGCProps
import Verif.EpochGCProps
import Verif.ConcQueueProps
import Verif.ConcIndexMapProps
import Verif.SharedResProps
import Verif.IndexMapProps
import Verif.Utf8Props
import Verif.StrProps
import Verif.ZoneEnumProps
import Verif.HeapAllocProps
import Verif.ZoneAllocProps
import Verif.HashLayoutProps
import Verif.FileHandleProps
import Verif.VirtualFileProps
import Verif.VirtualLockProps
import Verif.PathProps
import Verif.PathTextProps
import Verif.PathMatchProps
import Verif.DefaultPathProps
import Verif.VirtualTreeProps
import Verif.FileCopyProps
import Verif.VirtualCopyDirProps
import Verif.VirtualList
import Verif.VirtualListProps
import Verif.Rle
import Verif.RleProps
import Verif.VarInt
import Verif.VarIntProps
import Verif.Reflect
import Verif.ReflectSpec
import Verif.ReflectLemmas
import Verif.ReflectProps
import Verif.Limit
import Verif.LimitSpec
import Verif.LimitProps
import Verif.Vec
import Verif.VecSpec
import Verif.VecProps
import Verif.VecGeom
import Verif.VecGeomProps
import Verif.Ulps
import Verif.UlpsProps
import Verif.Mat4
import Verif.Mat4Props
import Verif.TypeGraph
import Verif.TypeGraphSpec
import Verif.TypeGraphProps
import Verif.LogFormat
import Verif.LogFormatSpec
import Verif.LogFormatProps
import Verif.LogMsg
import Verif.LogMsgSpec
import Verif.LogMsgProps
import Verif.MemTemplateProps
import Verif.TypeKeysProps
import Verif.HashCacheProps
import Verif.SimdShuffle
import Verif.SimdShuffleSpec
import Verif.SimdShuffleLemmas
import Verif.SimdShuffleProps
import Verif.SimdLane
import Verif.SimdLaneSpec
import Verif.SimdLaneLemmas
import Verif.SimdLaneCount
import Verif.SimdLaneProps
import Verif.SimdHoriz
import Verif.SimdHorizSpec
import Verif.SimdHorizLemmas
import Verif.SimdHorizProps
import Verif.DebugAlloc
import Verif.DebugAllocSpec
import Verif.DebugAllocLemmas
import Verif.DebugAllocCount
import Verif.DebugAllocProps
import Verif.LastComp
import Verif.LastCompProps
import Verif.InputFilter
import Verif.InputFilterProps
import Verif.PtrMap
import Verif.PtrMapSpec
import Verif.PtrMapLemmas
import Verif.PtrMapOps
import Verif.PtrMapExec
import Verif.PtrMapProps
import Verif.Mapped
import Verif.MappedSpec
import Verif.MappedLemmas
import Verif.MappedProps
import Verif.CopyCont
import Verif.CopyContSpec
import Verif.CopyContLemmas
import Verif.CopyContProps
import Verif.AllocDispatch
import Verif.AllocDispatchSpec
import Verif.AllocDispatchLemmas
import Verif.AllocDispatchProps
import Verif.ReadEnum
import Verif.ReadEnumSpec
import Verif.ReadEnumLemmas
import Verif.ReadEnumProps
import Verif.StreamCont
import Verif.StreamContSpec
import Verif.StreamContLemmas
import Verif.StreamContProps
import Verif.MapStream
import Verif.MapStreamProps
import Verif.ImplChoice
import Verif.ImplChoiceSpec
import Verif.ImplChoiceLemmas
import Verif.ImplChoiceProps
import Verif.ListEnum
import Verif.ListEnumProps
import Verif.GCDestroy
import Verif.GCDestroyProps
import Verif.GCNested
import Verif.GCNestedProps
import Verif.TaskOwn
import Verif.TaskOwnProps
import Verif.TaskLife
import Verif.TaskLifeProps
import Verif.CustomFmt
import Verif.CustomFmtSpec
import Verif.CustomFmtProps
import Verif.PrintInt
import Verif.PrintIntProps
import Verif.PrintData
import Verif.PrintDataProps
import Verif.PrintType
import Verif.PrintTypeProps
import Verif.KnownVal
import Verif.KnownValProps
import Verif.TrigProps
import Verif.ExpoProps
import Verif.CircWeakProps
import Verif.SwapWeakProps
import Verif.HashFailProps
import Verif.HashPubProps
import Verif.WaitFreeProps
import Verif.IndexMapProgressProps
import Verif.SharedProgressProps
import Verif.QueueProgressProps
import Verif.GCProgressProps
import Verif.TaskWeakProps
import Verif.HandoverWeakProps
import Verif.GCWeakProps
import Verif.QueueWeakProps
import Verif.SysInfoProps
import Verif.SharedWeak
import Verif.SharedWeakProps
import Verif.PoolWeak
import Verif.PoolWeakProps
import Verif.PoolCommit
import Verif.PoolCommitProps
import Verif.SlotWeak
import Verif.SlotWeakProps
import Verif.SerialStuck
import Verif.SerialStuckProps
import Verif.RandomPoint
import Verif.RandomPointLemmas
import Verif.RandomPointProps
import Verif.ResizeWeak
import Verif.ResizeWeakProps
import Verif.Tolerance
import Verif.ToleranceProps
import Verif.TermArray
import Verif.TermArrayProps
import Verif.TempMem
import Verif.TempMemProps
import Verif.DataOwner
import Verif.DataOwnerProps
import Verif.FileStream
import Verif.FileStreamProps
import Verif.VirtualBytes
import Verif.VirtualBytesProps
import Verif.RangeCheck
import Verif.RangeCheckProps
import Verif.ArrayBytes
import Verif.ArrayBytesProps
import Verif.FastArrayChoice
import Verif.FastArrayChoiceProps
import Verif.ContainerOwner
import Verif.ContainerOwnerProps
import Verif.AllocError
import Verif.AllocErrorProps

import Verif.Common.Bytes
import Verif.CircularBuffer.Props
import Verif.StackBuffer.Props
import Verif.Block.Iterator.Props
import Verif.Block.Vector.Props
import Verif.Block.Vector.ThrowProps
import Verif.Block.Deque.Props
import Verif.Block.Deque.ThrowProps
import Verif.Mapped.Vector.Props
import Verif.Mapped.Pointer.Props
import Verif.Mapped.Str.Props
import Verif.Mapped.Dual.Props
import Verif.Mapped.DualStr.Props
import Verif.Mapped.DualPtr.Props
import Verif.MapOps.Props
import Verif.Conc.Check
import Verif.SimpleQueue.Props
import Verif.AirLock.Props
import Verif.AirLock.ThrowProps
import Verif.BlockingQueue.Props
import Verif.BlockingPriorityQueue.Props
import Verif.WorkBlock.Props
import Verif.WorkQueue.Props
import Verif.WorkQueue.PropsClose
import Verif.WorkQueue.Full.Props
import Verif.Mapped.Several.Props
import Verif.Mapped.SeveralPtr.Props
import Verif.CircularBuffer.UnitTests
import Verif.StackBuffer.UnitTests
import Verif.Block.Vector.UnitTests
import Verif.Block.Deque.UnitTests
import Verif.Mapped.UnitTests
import Verif.Conc.OneThread
import Verif.SimpleQueue.UnitTests
import Verif.AirLock.UnitTests
import Verif.Blocking.UnitTests
import Verif.WorkQueue.Full.Race
import Verif.WorkQueue.UnitTests
import Verif.WorkQueue.Throw.Props
import Verif.Mapped.Vector.ThrowProps
import Verif.Mapped.Dual.ThrowProps
import Verif.Mapped.RemoveThrow
import Verif.Mapped.Pointer.ThrowProps
import Verif.Mapped.DualPtr.ThrowProps
import Verif.Mapped.Str.ThrowProps
import Verif.Mapped.DualStr.ThrowProps
import Verif.Block.Arrays
import Verif.Block.Vector.Arrays
import Verif.Block.Vector.ArraysLemmas
import Verif.Block.Vector.ArraysProps
import Verif.Block.Deque.Arrays
import Verif.Block.Deque.ArraysLemmas
import Verif.Block.Deque.ArraysProps
import Verif.StackBuffer.HeapProps
import Verif.CircularBuffer.HeapProps
import Verif.CircularBuffer.Exact
import Verif.StackBuffer.Align
import Verif.WorkQueue.PropsShare
import Verif.WorkQueue.PropsWait
import Verif.WorkQueue.PropsLive
import Verif.SimpleQueue.Live
import Verif.Blocking.PropsLive
import Verif.AirLock.PropsLive
import Verif.Conc.HappensBefore
import Verif.Conc.Clock
import Verif.AirLock.WeakModel
import Verif.AirLock.WeakLemmas
import Verif.AirLock.WeakProps
import Verif.Block.Mixed.Spec
import Verif.Block.Mixed.World
import Verif.Block.Mixed.Props
import Verif.Mapped.SeveralStr.Props
import Verif.Mapped.Vector.ExactProps
import Verif.Mapped.Pointer.ExactProps
import Verif.Mapped.DualPtr.ExactSpec
import Verif.Mapped.DualPtr.Exact
import Verif.Mapped.DualPtr.ExactProps
import Verif.Mapped.Str.ExactProps
import Verif.Mapped.Dual.ExactProps
import Verif.Mapped.DualStr.ExactProps
import Verif.WorkBlock.ProgProps
import Verif.CircularBuffer.Ints
import Verif.StackBuffer.Ints
import Verif.Block.Iterator.Ints
import Verif.Block.Leak
import Verif.Block.Vector.CtorThrow
import Verif.Block.Vector.CtorThrowProps
import Verif.Block.Deque.CtorThrow
import Verif.Block.Deque.CtorThrowProps
import Verif.Block.Vector.Moved
import Verif.Block.Deque.Careless
import Verif.Block.Vector.Unwritten
import Verif.Block.Deque.Unwritten
import Verif.Block.Vector.IntMembers
import Verif.Block.Deque.IntMembers
import Verif.WorkQueue.Inner.Props
import Verif.WorkQueue.Inner.Lock
import Verif.WorkBlock.TasksProps
import Verif.Block.Vector.Careless
import Verif.WorkBlock.MemoryProps
import Verif.Block.Vector.NoMemory
import Verif.Block.Deque.PopMemory
import Verif.Block.Deque.NoMemory
import Verif.Mapped.Vector.NoMemory
import Verif.Mapped.Str.Kept
import Verif.Mapped.DualStr.Kept
import Verif.Mapped.AssignThrow
import Verif.Block.Vector.OldIters
import Verif.Block.Deque.OldIters
import Verif.Block.Deque.Room
import Verif.Block.Vector.SelfPush
import Verif.Block.Deque.SelfPush
import Verif.Block.Vector.Swap
import Verif.Block.Deque.Swap
import Verif.CircularBuffer.StdSwap
import Verif.StackBuffer.StdSwap
import Verif.SimpleQueue.Moves
import Verif.BlockingQueue.Life
import Verif.BlockingPriorityQueue.Life
import Verif.Mapped.Several.StdSwap
import Verif.Mapped.SeveralPtr.StdSwap
import Verif.Mapped.SeveralStr.StdSwap
import Verif.WorkBlock.StdSwap
import Verif.SimpleQueue.Assign
import Verif.Blocking.AssignWaiting
import Verif.Axioms

import Verif.Common.Bytes
import Verif.CircularBuffer.Props
import Verif.StackBuffer.Props
import Verif.Block.Iterator.Props
import Verif.Block.Vector.Props
import Verif.Block.Vector.ThrowProps
import Verif.Block.Deque.Props
import Verif.Block.Deque.ThrowProps
import Verif.Mapped.Vector.Props
import Verif.Mapped.Pointer.Props
import Verif.Mapped.Str.Props
import Verif.Mapped.Dual.Props
import Verif.Mapped.DualStr.Props
import Verif.Mapped.DualPtr.Props
import Verif.MapOps.Props
import Verif.Conc.Check
import Verif.SimpleQueue.Props
import Verif.AirLock.Props
import Verif.AirLock.ThrowProps
import Verif.BlockingQueue.Props
import Verif.BlockingPriorityQueue.Props
import Verif.WorkBlock.Props
import Verif.WorkQueue.Props
import Verif.WorkQueue.PropsClose
import Verif.WorkQueue.Full.Props
import Verif.Mapped.Several.Props
import Verif.Mapped.SeveralPtr.Props
import Verif.CircularBuffer.UnitTests
import Verif.StackBuffer.UnitTests
import Verif.Block.Vector.UnitTests
import Verif.Block.Deque.UnitTests
import Verif.Mapped.UnitTests
import Verif.Conc.OneThread
import Verif.SimpleQueue.UnitTests
import Verif.AirLock.UnitTests
import Verif.Blocking.UnitTests
import Verif.WorkQueue.Full.Race
import Verif.WorkQueue.UnitTests
import Verif.WorkQueue.Throw.Props
import Verif.Mapped.Vector.ThrowProps
import Verif.Mapped.Dual.ThrowProps
import Verif.Mapped.RemoveThrow
import Verif.Mapped.Pointer.ThrowProps
import Verif.Mapped.DualPtr.ThrowProps
import Verif.Mapped.Str.ThrowProps
import Verif.Mapped.DualStr.ThrowProps
import Verif.Block.Arrays
import Verif.Block.Vector.Arrays
import Verif.Block.Vector.ArraysLemmas
import Verif.Block.Vector.ArraysProps
import Verif.Block.Deque.Arrays
import Verif.Block.Deque.ArraysLemmas
import Verif.Block.Deque.ArraysProps
import Verif.StackBuffer.HeapProps
import Verif.CircularBuffer.HeapProps
import Verif.CircularBuffer.Exact
import Verif.StackBuffer.Align
import Verif.WorkQueue.PropsShare
import Verif.WorkQueue.PropsWait
import Verif.WorkQueue.PropsLive
import Verif.SimpleQueue.Live
import Verif.Blocking.PropsLive
import Verif.AirLock.PropsLive
import Verif.Conc.HappensBefore
import Verif.Conc.Clock
import Verif.AirLock.WeakModel
import Verif.AirLock.WeakLemmas
import Verif.AirLock.WeakProps
import Verif.Block.Mixed.Spec
import Verif.Block.Mixed.World
import Verif.Block.Mixed.Props
import Verif.Mapped.SeveralStr.Props
import Verif.Mapped.Vector.ExactProps
import Verif.Mapped.Pointer.ExactProps
import Verif.Mapped.DualPtr.ExactSpec
import Verif.Mapped.DualPtr.Exact
import Verif.Mapped.DualPtr.ExactProps
import Verif.Mapped.Str.ExactProps
import Verif.Mapped.Dual.ExactProps
import Verif.Mapped.DualStr.ExactProps
import Verif.WorkBlock.ProgProps
import Verif.CircularBuffer.Ints
import Verif.StackBuffer.Ints
import Verif.Block.Iterator.Ints
import Verif.Block.Leak
import Verif.Block.Vector.CtorThrow
import Verif.Block.Vector.CtorThrowProps
import Verif.Block.Deque.CtorThrow
import Verif.Block.Deque.CtorThrowProps
import Verif.Block.Vector.Moved
import Verif.Block.Deque.Careless
import Verif.Block.Vector.Unwritten
import Verif.Block.Deque.Unwritten
import Verif.Block.Vector.IntMembers
import Verif.Block.Deque.IntMembers
import Verif.WorkQueue.Inner.Props
import Verif.WorkQueue.Inner.Lock
import Verif.WorkBlock.TasksProps
import Verif.Block.Vector.Careless
import Verif.WorkBlock.MemoryProps
import Verif.Block.Vector.NoMemory
import Verif.Block.Deque.PopMemory
import Verif.Block.Deque.NoMemory
import Verif.Mapped.Vector.NoMemory
import Verif.Mapped.Str.Kept
import Verif.Mapped.DualStr.Kept
import Verif.Mapped.AssignThrow
import Verif.Block.Vector.OldIters
import Verif.Block.Deque.OldIters
import Verif.Block.Deque.Room
import Verif.Block.Vector.SelfPush
import Verif.Block.Deque.SelfPush
import Verif.Block.Vector.Swap
import Verif.Block.Deque.Swap
import Verif.CircularBuffer.StdSwap
import Verif.StackBuffer.StdSwap
import Verif.SimpleQueue.Moves
import Verif.BlockingQueue.Life
import Verif.BlockingPriorityQueue.Life
import Verif.Mapped.Several.StdSwap
import Verif.Mapped.SeveralPtr.StdSwap
import Verif.Mapped.SeveralStr.StdSwap
import Verif.WorkBlock.StdSwap
import Verif.SimpleQueue.Assign
import Verif.Blocking.AssignWaiting

/-
The axioms each theorem named in MANIFEST.json depends on, checked by the build: `#guard_msgs` fails if the message differs.
(Generated from the manifest.)
-/

/-- info: 'Verif.CircularBuffer.fifo_partial' depends on axioms: [propext, Classical.choice, Quot.sound] -/
#guard_msgs (whitespace := lax) in
#print axioms Verif.CircularBuffer.fifo_partial

/-- info: 'Verif.CircularBuffer.fifo_order_partial' depends on axioms: [propext, Classical.choice, Quot.sound] -/
#guard_msgs (whitespace := lax) in
#print axioms Verif.CircularBuffer.fifo_order_partial

/-- info: 'Verif.CircularBuffer.objects_session_partial' depends on axioms: [propext, Classical.choice, Quot.sound] -/
#guard_msgs (whitespace := lax) in
#print axioms Verif.CircularBuffer.objects_session_partial

/-- info: 'Verif.CircularBuffer.fifo_violation' depends on axioms: [propext] -/
#guard_msgs (whitespace := lax) in
#print axioms Verif.CircularBuffer.fifo_violation

/-- info: 'Verif.CircularBuffer.fifo_violation_duplicate' depends on axioms: [propext] -/
#guard_msgs (whitespace := lax) in
#print axioms Verif.CircularBuffer.fifo_violation_duplicate

/-- info: 'Verif.CircularBuffer.fifo_violation_loss' depends on axioms: [propext] -/
#guard_msgs (whitespace := lax) in
#print axioms Verif.CircularBuffer.fifo_violation_loss

/-- info: 'Verif.CircularBuffer.fifo_margin_tight' depends on axioms: [propext] -/
#guard_msgs (whitespace := lax) in
#print axioms Verif.CircularBuffer.fifo_margin_tight

/-- info: 'Verif.CircularBuffer.exact_fill_loses_everything' depends on axioms: [propext, Quot.sound] -/
#guard_msgs (whitespace := lax) in
#print axioms Verif.CircularBuffer.exact_fill_loses_everything

/-- info: 'Verif.CircularBuffer.fifo_exact_partial' depends on axioms: [propext, Classical.choice, Quot.sound] -/
#guard_msgs (whitespace := lax) in
#print axioms Verif.CircularBuffer.fifo_exact_partial

/-- info: 'Verif.CircularBuffer.push_safe_iff' depends on axioms: [propext, Classical.choice, Quot.sound] -/
#guard_msgs (whitespace := lax) in
#print axioms Verif.CircularBuffer.push_safe_iff

/-- info: 'Verif.CircularBuffer.inBounds_partial' depends on axioms: [propext, Classical.choice, Quot.sound] -/
#guard_msgs (whitespace := lax) in
#print axioms Verif.CircularBuffer.inBounds_partial

/-- info: 'Verif.CircularBuffer.inBounds_violation' depends on axioms: [propext] -/
#guard_msgs (whitespace := lax) in
#print axioms Verif.CircularBuffer.inBounds_violation

/-- info: 'Verif.CircularBuffer.push_iff_space' depends on axioms: [propext, Quot.sound] -/
#guard_msgs (whitespace := lax) in
#print axioms Verif.CircularBuffer.push_iff_space

/-- info: 'Verif.CircularBuffer.push_refused' depends on axioms: [propext] -/
#guard_msgs (whitespace := lax) in
#print axioms Verif.CircularBuffer.push_refused

/-- info: 'Verif.CircularBuffer.owner_push_iff_space' depends on axioms: [propext, Quot.sound] -/
#guard_msgs (whitespace := lax) in
#print axioms Verif.CircularBuffer.owner_push_iff_space

/-- info: 'Verif.CircularBuffer.pop_protocol_partial' depends on axioms: [propext, Classical.choice, Quot.sound] -/
#guard_msgs (whitespace := lax) in
#print axioms Verif.CircularBuffer.pop_protocol_partial

/-- info: 'Verif.CircularBuffer.resize_safe_iff' depends on axioms: [propext, Classical.choice, Quot.sound] -/
#guard_msgs (whitespace := lax) in
#print axioms Verif.CircularBuffer.resize_safe_iff

/-- info: 'Verif.CircularBuffer.resize_grow' depends on axioms: [propext, Classical.choice, Quot.sound] -/
#guard_msgs (whitespace := lax) in
#print axioms Verif.CircularBuffer.resize_grow

/-- info: 'Verif.CircularBuffer.resize_never_too_small' depends on axioms: [propext, Classical.choice, Quot.sound] -/
#guard_msgs (whitespace := lax) in
#print axioms Verif.CircularBuffer.resize_never_too_small

/-- info: 'Verif.CircularBuffer.resize_throw_unchanged' depends on axioms: [propext, Quot.sound] -/
#guard_msgs (whitespace := lax) in
#print axioms Verif.CircularBuffer.resize_throw_unchanged

/-- info: 'Verif.CircularBuffer.resize_violation' depends on axioms: [propext] -/
#guard_msgs (whitespace := lax) in
#print axioms Verif.CircularBuffer.resize_violation

/-- info: 'Verif.CircularBuffer.copy_of_default_violation' depends on axioms: [propext] -/
#guard_msgs (whitespace := lax) in
#print axioms Verif.CircularBuffer.copy_of_default_violation

/-- info: 'Verif.CircularBuffer.size_zero_leak' does not depend on any axioms -/
#guard_msgs (whitespace := lax) in
#print axioms Verif.CircularBuffer.size_zero_leak

/-- info: 'Verif.CircularBuffer.empty_accepts_partial' depends on axioms: [propext, Quot.sound] -/
#guard_msgs (whitespace := lax) in
#print axioms Verif.CircularBuffer.empty_accepts_partial

/-- info: 'Verif.CircularBuffer.empty_accepts_violation' depends on axioms: [propext] -/
#guard_msgs (whitespace := lax) in
#print axioms Verif.CircularBuffer.empty_accepts_violation

/-- info: 'Verif.CircularBuffer.empty_accepts_iff' depends on axioms: [propext, Classical.choice, Quot.sound] -/
#guard_msgs (whitespace := lax) in
#print axioms Verif.CircularBuffer.empty_accepts_iff

/-- info: 'Verif.CircularBuffer.one_message' depends on axioms: [propext, Classical.choice, Quot.sound] -/
#guard_msgs (whitespace := lax) in
#print axioms Verif.CircularBuffer.one_message

/-- info: 'Verif.CircularBuffer.space_reclaimed' depends on axioms: [propext, Classical.choice, Quot.sound] -/
#guard_msgs (whitespace := lax) in
#print axioms Verif.CircularBuffer.space_reclaimed

/-- info: 'Verif.StackBuffer.lifo' depends on axioms: [propext, Classical.choice, Quot.sound] -/
#guard_msgs (whitespace := lax) in
#print axioms Verif.StackBuffer.lifo

/-- info: 'Verif.StackBuffer.objects_session_partial' depends on axioms: [propext, Classical.choice, Quot.sound] -/
#guard_msgs (whitespace := lax) in
#print axioms Verif.StackBuffer.objects_session_partial

/-- info: 'Verif.StackBuffer.inBounds' depends on axioms: [propext, Classical.choice, Quot.sound] -/
#guard_msgs (whitespace := lax) in
#print axioms Verif.StackBuffer.inBounds

/-- info: 'Verif.StackBuffer.push_iff_space' depends on axioms: [propext, Quot.sound] -/
#guard_msgs (whitespace := lax) in
#print axioms Verif.StackBuffer.push_iff_space

/-- info: 'Verif.StackBuffer.push_refused' depends on axioms: [propext] -/
#guard_msgs (whitespace := lax) in
#print axioms Verif.StackBuffer.push_refused

/-- info: 'Verif.StackBuffer.owner_push_iff_space' depends on axioms: [propext, Quot.sound] -/
#guard_msgs (whitespace := lax) in
#print axioms Verif.StackBuffer.owner_push_iff_space

/-- info: 'Verif.StackBuffer.pop_protocol' depends on axioms: [propext, Classical.choice, Quot.sound] -/
#guard_msgs (whitespace := lax) in
#print axioms Verif.StackBuffer.pop_protocol

/-- info: 'Verif.StackBuffer.resize_throw_unchanged' depends on axioms: [propext, Quot.sound] -/
#guard_msgs (whitespace := lax) in
#print axioms Verif.StackBuffer.resize_throw_unchanged

/-- info: 'Verif.StackBuffer.grow_empty_partial' depends on axioms: [propext, Classical.choice, Quot.sound] -/
#guard_msgs (whitespace := lax) in
#print axioms Verif.StackBuffer.grow_empty_partial

/-- info: 'Verif.StackBuffer.grow_violation' depends on axioms: [propext] -/
#guard_msgs (whitespace := lax) in
#print axioms Verif.StackBuffer.grow_violation

/-- info: 'Verif.StackBuffer.resize_nonempty_blocks_push' depends on axioms: [propext, Classical.choice, Quot.sound] -/
#guard_msgs (whitespace := lax) in
#print axioms Verif.StackBuffer.resize_nonempty_blocks_push

/-- info: 'Verif.StackBuffer.moved_from_violation' depends on axioms: [propext] -/
#guard_msgs (whitespace := lax) in
#print axioms Verif.StackBuffer.moved_from_violation

/-- info: 'Verif.StackBuffer.space_reclaimed' depends on axioms: [propext, Classical.choice, Quot.sound] -/
#guard_msgs (whitespace := lax) in
#print axioms Verif.StackBuffer.space_reclaimed

/-- info: 'Verif.StackBuffer.owner_space_reclaimed' depends on axioms: [propext, Classical.choice, Quot.sound] -/
#guard_msgs (whitespace := lax) in
#print axioms Verif.StackBuffer.owner_space_reclaimed

/-- info: 'Verif.StackBuffer.space_exact' depends on axioms: [propext, Classical.choice, Quot.sound] -/
#guard_msgs (whitespace := lax) in
#print axioms Verif.StackBuffer.space_exact

/-- info: 'Verif.StackBuffer.space_reverse_wastes' depends on axioms: [propext] -/
#guard_msgs (whitespace := lax) in
#print axioms Verif.StackBuffer.space_reverse_wastes

/-- info: 'Verif.Block.Vector.sequence' depends on axioms: [propext, Classical.choice, Quot.sound] -/
#guard_msgs (whitespace := lax) in
#print axioms Verif.Block.Vector.sequence

/-- info: 'Verif.Block.Vector.programs_partial' depends on axioms: [propext, Classical.choice, Quot.sound] -/
#guard_msgs (whitespace := lax) in
#print axioms Verif.Block.Vector.programs_partial

/-- info: 'Verif.Block.Vector.references_keep_value' depends on axioms: [propext, Classical.choice, Quot.sound] -/
#guard_msgs (whitespace := lax) in
#print axioms Verif.Block.Vector.references_keep_value

/-- info: 'Verif.Block.Vector.references_stable' depends on axioms: [propext, Classical.choice, Quot.sound] -/
#guard_msgs (whitespace := lax) in
#print axioms Verif.Block.Vector.references_stable

/-- info: 'Verif.Block.Vector.lifecycle' depends on axioms: [propext, Classical.choice, Quot.sound] -/
#guard_msgs (whitespace := lax) in
#print axioms Verif.Block.Vector.lifecycle

/-- info: 'Verif.Block.Vector.lifecycle_copies_partial' depends on axioms: [propext, Classical.choice, Quot.sound] -/
#guard_msgs (whitespace := lax) in
#print axioms Verif.Block.Vector.lifecycle_copies_partial

/-- info: 'Verif.Block.Vector.careful_exact' depends on axioms: [propext, Classical.choice, Quot.sound] -/
#guard_msgs (whitespace := lax) in
#print axioms Verif.Block.Vector.careful_exact

/-- info: 'Verif.Block.Vector.copy_emptied_violation' depends on axioms: [propext] -/
#guard_msgs (whitespace := lax) in
#print axioms Verif.Block.Vector.copy_emptied_violation

/-- info: 'Verif.Block.Vector.iteration_partial' depends on axioms: [propext, Classical.choice, Quot.sound] -/
#guard_msgs (whitespace := lax) in
#print axioms Verif.Block.Vector.iteration_partial

/-- info: 'Verif.Block.Vector.iteration_mixed_partial' depends on axioms: [propext, Classical.choice, Quot.sound] -/
#guard_msgs (whitespace := lax) in
#print axioms Verif.Block.Vector.iteration_mixed_partial

/-- info: 'Verif.Block.Vector.iterate_full_undefined' depends on axioms: [propext, Classical.choice, Quot.sound] -/
#guard_msgs (whitespace := lax) in
#print axioms Verif.Block.Vector.iterate_full_undefined

/-- info: 'Verif.Block.Vector.iterate_full_violation' depends on axioms: [propext, Classical.choice, Quot.sound] -/
#guard_msgs (whitespace := lax) in
#print axioms Verif.Block.Vector.iterate_full_violation

/-- info: 'Verif.Block.Vector.copy_partial' depends on axioms: [propext, Classical.choice, Quot.sound] -/
#guard_msgs (whitespace := lax) in
#print axioms Verif.Block.Vector.copy_partial

/-- info: 'Verif.Block.Vector.copy_emptied_calls' depends on axioms: [propext, Classical.choice, Quot.sound] -/
#guard_msgs (whitespace := lax) in
#print axioms Verif.Block.Vector.copy_emptied_calls

/-- info: 'Verif.Block.Vector.move_partial' depends on axioms: [propext, Classical.choice, Quot.sound] -/
#guard_msgs (whitespace := lax) in
#print axioms Verif.Block.Vector.move_partial

/-- info: 'Verif.Block.Vector.moved_ctor_calls' depends on axioms: [propext, Classical.choice, Quot.sound] -/
#guard_msgs (whitespace := lax) in
#print axioms Verif.Block.Vector.moved_ctor_calls

/-- info: 'Verif.Block.Vector.moved_from_push_undefined' depends on axioms: [propext, Classical.choice, Quot.sound] -/
#guard_msgs (whitespace := lax) in
#print axioms Verif.Block.Vector.moved_from_push_undefined

/-- info: 'Verif.Block.Vector.moved_assign_calls' depends on axioms: [propext, Classical.choice, Quot.sound] -/
#guard_msgs (whitespace := lax) in
#print axioms Verif.Block.Vector.moved_assign_calls

/-- info: 'Verif.Block.Vector.moved_from_size_wrong' depends on axioms: [propext, Classical.choice, Quot.sound] -/
#guard_msgs (whitespace := lax) in
#print axioms Verif.Block.Vector.moved_from_size_wrong

/-- info: 'Verif.Block.Vector.moved_assign_push' depends on axioms: [propext, Classical.choice, Quot.sound] -/
#guard_msgs (whitespace := lax) in
#print axioms Verif.Block.Vector.moved_assign_push

/-- info: 'Verif.Block.Vector.moved_from_push_violation' depends on axioms: [propext] -/
#guard_msgs (whitespace := lax) in
#print axioms Verif.Block.Vector.moved_from_push_violation

/-- info: 'Verif.Block.Vector.moved_from_size_violation' depends on axioms: [propext] -/
#guard_msgs (whitespace := lax) in
#print axioms Verif.Block.Vector.moved_from_size_violation

/-- info: 'Verif.Block.Vector.checked_at' depends on axioms: [propext, Classical.choice, Quot.sound] -/
#guard_msgs (whitespace := lax) in
#print axioms Verif.Block.Vector.checked_at

/-- info: 'Verif.Block.Vector.shrink_invisible' depends on axioms: [propext, Classical.choice, Quot.sound] -/
#guard_msgs (whitespace := lax) in
#print axioms Verif.Block.Vector.shrink_invisible

/-- info: 'Verif.Block.Iter.add_is_index_add' depends on axioms: [propext, Quot.sound] -/
#guard_msgs (whitespace := lax) in
#print axioms Verif.Block.Iter.add_is_index_add

/-- info: 'Verif.Block.Iter.sub_is_index_sub' depends on axioms: [propext, Quot.sound] -/
#guard_msgs (whitespace := lax) in
#print axioms Verif.Block.Iter.sub_is_index_sub

/-- info: 'Verif.Block.Iter.add_sub_cancel' depends on axioms: [propext, Quot.sound] -/
#guard_msgs (whitespace := lax) in
#print axioms Verif.Block.Iter.add_sub_cancel

/-- info: 'Verif.Block.Iter.eq_iff_same_position' depends on axioms: [propext, Quot.sound] -/
#guard_msgs (whitespace := lax) in
#print axioms Verif.Block.Iter.eq_iff_same_position

/-- info: 'Verif.Block.Iter.deref_is_element' depends on axioms: [propext, Quot.sound] -/
#guard_msgs (whitespace := lax) in
#print axioms Verif.Block.Iter.deref_is_element

/-- info: 'Verif.Block.Iter.post_movement' depends on axioms: [propext, Quot.sound] -/
#guard_msgs (whitespace := lax) in
#print axioms Verif.Block.Iter.post_movement

/-- info: 'Verif.Block.Iter.mixed_eq_iff_same_position' depends on axioms: [propext, Quot.sound] -/
#guard_msgs (whitespace := lax) in
#print axioms Verif.Block.Iter.mixed_eq_iff_same_position

/-- info: 'Verif.Block.Iter.element_true' depends on axioms: [propext, Quot.sound] -/
#guard_msgs (whitespace := lax) in
#print axioms Verif.Block.Iter.element_true

/-- info: 'Verif.Block.Iter.negative_movement_partial' depends on axioms: [propext, Quot.sound] -/
#guard_msgs (whitespace := lax) in
#print axioms Verif.Block.Iter.negative_movement_partial

/-- info: 'Verif.Block.Iter.negative_movement_violation' depends on axioms: [propext] -/
#guard_msgs (whitespace := lax) in
#print axioms Verif.Block.Iter.negative_movement_violation

/-- info: 'Verif.Block.Iter.negative_movement_dangles' depends on axioms: [propext] -/
#guard_msgs (whitespace := lax) in
#print axioms Verif.Block.Iter.negative_movement_dangles

/-- info: 'Verif.Block.Deque.sequence_partial' depends on axioms: [propext, Classical.choice, Quot.sound] -/
#guard_msgs (whitespace := lax) in
#print axioms Verif.Block.Deque.sequence_partial

/-- info: 'Verif.Block.Deque.programs_partial' depends on axioms: [propext, Classical.choice, Quot.sound] -/
#guard_msgs (whitespace := lax) in
#print axioms Verif.Block.Deque.programs_partial

/-- info: 'Verif.Block.Deque.clear_violation' depends on axioms: [propext] -/
#guard_msgs (whitespace := lax) in
#print axioms Verif.Block.Deque.clear_violation

/-- info: 'Verif.Block.Deque.careful_exact' depends on axioms: [propext, Classical.choice, Quot.sound] -/
#guard_msgs (whitespace := lax) in
#print axioms Verif.Block.Deque.careful_exact

/-- info: 'Verif.Block.Deque.assign_full_violation' depends on axioms: [propext] -/
#guard_msgs (whitespace := lax) in
#print axioms Verif.Block.Deque.assign_full_violation

/-- info: 'Verif.Block.Deque.pushFront_overlap_violation' depends on axioms: [propext] -/
#guard_msgs (whitespace := lax) in
#print axioms Verif.Block.Deque.pushFront_overlap_violation

/-- info: 'Verif.Block.Deque.pushFront_small_violation' depends on axioms: [propext] -/
#guard_msgs (whitespace := lax) in
#print axioms Verif.Block.Deque.pushFront_small_violation

/-- info: 'Verif.Block.Deque.references_stable_partial' depends on axioms: [propext, Classical.choice, Quot.sound] -/
#guard_msgs (whitespace := lax) in
#print axioms Verif.Block.Deque.references_stable_partial

/-- info: 'Verif.Block.Deque.references_stable_simple_partial' depends on axioms: [propext, Classical.choice, Quot.sound] -/
#guard_msgs (whitespace := lax) in
#print axioms Verif.Block.Deque.references_stable_simple_partial

/-- info: 'Verif.Block.Deque.lifecycle_partial' depends on axioms: [propext, Classical.choice, Quot.sound] -/
#guard_msgs (whitespace := lax) in
#print axioms Verif.Block.Deque.lifecycle_partial

/-- info: 'Verif.Block.Deque.lifecycle_programs_partial' depends on axioms: [propext, Classical.choice, Quot.sound] -/
#guard_msgs (whitespace := lax) in
#print axioms Verif.Block.Deque.lifecycle_programs_partial

/-- info: 'Verif.Block.Deque.iteration_partial' depends on axioms: [propext, Classical.choice, Quot.sound] -/
#guard_msgs (whitespace := lax) in
#print axioms Verif.Block.Deque.iteration_partial

/-- info: 'Verif.Block.Deque.iteration_mixed_partial' depends on axioms: [propext, Classical.choice, Quot.sound] -/
#guard_msgs (whitespace := lax) in
#print axioms Verif.Block.Deque.iteration_mixed_partial

/-- info: 'Verif.Block.Deque.iteration_exact' depends on axioms: [propext, Classical.choice, Quot.sound] -/
#guard_msgs (whitespace := lax) in
#print axioms Verif.Block.Deque.iteration_exact

/-- info: 'Verif.Block.Deque.iterate_full_violation' depends on axioms: [propext] -/
#guard_msgs (whitespace := lax) in
#print axioms Verif.Block.Deque.iterate_full_violation

/-- info: 'Verif.Block.Deque.moved_from_iterate_violation' depends on axioms: [propext] -/
#guard_msgs (whitespace := lax) in
#print axioms Verif.Block.Deque.moved_from_iterate_violation

/-- info: 'Verif.Block.Deque.sized_partial' depends on axioms: [propext, Classical.choice, Quot.sound] -/
#guard_msgs (whitespace := lax) in
#print axioms Verif.Block.Deque.sized_partial

/-- info: 'Verif.Block.Deque.copy_partial' depends on axioms: [propext, Classical.choice, Quot.sound] -/
#guard_msgs (whitespace := lax) in
#print axioms Verif.Block.Deque.copy_partial

/-- info: 'Verif.Block.Deque.move_partial' depends on axioms: [propext, Classical.choice, Quot.sound] -/
#guard_msgs (whitespace := lax) in
#print axioms Verif.Block.Deque.move_partial

/-- info: 'Verif.Block.Deque.moved_calls' depends on axioms: [propext, Classical.choice, Quot.sound] -/
#guard_msgs (whitespace := lax) in
#print axioms Verif.Block.Deque.moved_calls

/-- info: 'Verif.Block.Deque.made_empty_calls' depends on axioms: [propext, Classical.choice, Quot.sound] -/
#guard_msgs (whitespace := lax) in
#print axioms Verif.Block.Deque.made_empty_calls

/-- info: 'Verif.Block.Deque.sized_zero_violation' depends on axioms: [propext] -/
#guard_msgs (whitespace := lax) in
#print axioms Verif.Block.Deque.sized_zero_violation

/-- info: 'Verif.Block.Deque.copy_default_violation' depends on axioms: [propext] -/
#guard_msgs (whitespace := lax) in
#print axioms Verif.Block.Deque.copy_default_violation

/-- info: 'Verif.Block.Deque.moved_from_push_violation' depends on axioms: [propext] -/
#guard_msgs (whitespace := lax) in
#print axioms Verif.Block.Deque.moved_from_push_violation

/-- info: 'Verif.Block.Deque.checked_access_partial' depends on axioms: [propext, Classical.choice, Quot.sound] -/
#guard_msgs (whitespace := lax) in
#print axioms Verif.Block.Deque.checked_access_partial

/-- info: 'Verif.Block.Deque.slots_in_bounds' depends on axioms: [propext, Classical.choice, Quot.sound] -/
#guard_msgs (whitespace := lax) in
#print axioms Verif.Block.Deque.slots_in_bounds

/-- info: 'Verif.Mapped.Vector.history_unstable_no_removal' depends on axioms: [propext, Classical.choice, Quot.sound] -/
#guard_msgs (whitespace := lax) in
#print axioms Verif.Mapped.Vector.history_unstable_no_removal

/-- info: 'Verif.Mapped.Vector.history_unstable_partial' depends on axioms: [propext, Classical.choice, Quot.sound] -/
#guard_msgs (whitespace := lax) in
#print axioms Verif.Mapped.Vector.history_unstable_partial

/-- info: 'Verif.Mapped.Vector.history_stable_partial' depends on axioms: [propext, Classical.choice, Quot.sound] -/
#guard_msgs (whitespace := lax) in
#print axioms Verif.Mapped.Vector.history_stable_partial

/-- info: 'Verif.Mapped.Vector.find_full' depends on axioms: [propext] -/
#guard_msgs (whitespace := lax) in
#print axioms Verif.Mapped.Vector.find_full

/-- info: 'Verif.Mapped.Vector.removal_unstable_partial' depends on axioms: [propext, Classical.choice, Quot.sound] -/
#guard_msgs (whitespace := lax) in
#print axioms Verif.Mapped.Vector.removal_unstable_partial

/-- info: 'Verif.Mapped.Vector.removal_stable_partial' depends on axioms: [propext, Classical.choice, Quot.sound] -/
#guard_msgs (whitespace := lax) in
#print axioms Verif.Mapped.Vector.removal_stable_partial

/-- info: 'Verif.Mapped.Vector.alias_violation' depends on axioms: [propext] -/
#guard_msgs (whitespace := lax) in
#print axioms Verif.Mapped.Vector.alias_violation

/-- info: 'Verif.Mapped.Vector.keyless_violation' depends on axioms: [propext] -/
#guard_msgs (whitespace := lax) in
#print axioms Verif.Mapped.Vector.keyless_violation

/-- info: 'Verif.Mapped.Vector.keyless_undefined' depends on axioms: [propext] -/
#guard_msgs (whitespace := lax) in
#print axioms Verif.Mapped.Vector.keyless_undefined

/-- info: 'Verif.Mapped.Vector.index_in_range_unstable_partial' depends on axioms: [propext, Classical.choice, Quot.sound] -/
#guard_msgs (whitespace := lax) in
#print axioms Verif.Mapped.Vector.index_in_range_unstable_partial

/-- info: 'Verif.Mapped.Vector.index_in_range_stable_partial' depends on axioms: [propext, Classical.choice, Quot.sound] -/
#guard_msgs (whitespace := lax) in
#print axioms Verif.Mapped.Vector.index_in_range_stable_partial

/-- info: 'Verif.Mapped.Vector.index_never_beyond_end' depends on axioms: [propext, Quot.sound] -/
#guard_msgs (whitespace := lax) in
#print axioms Verif.Mapped.Vector.index_never_beyond_end

/-- info: 'Verif.Mapped.Vector.stale_index_violation' depends on axioms: [propext] -/
#guard_msgs (whitespace := lax) in
#print axioms Verif.Mapped.Vector.stale_index_violation

/-- info: 'Verif.Mapped.Vector.stable_references_partial' depends on axioms: [propext, Classical.choice, Quot.sound] -/
#guard_msgs (whitespace := lax) in
#print axioms Verif.Mapped.Vector.stable_references_partial

/-- info: 'Verif.Mapped.Vector.stable_drop_values' depends on axioms: [propext, Classical.choice, Quot.sound] -/
#guard_msgs (whitespace := lax) in
#print axioms Verif.Mapped.Vector.stable_drop_values

/-- info: 'Verif.Mapped.Vector.traversal_unstable_partial' depends on axioms: [propext, Classical.choice, Quot.sound] -/
#guard_msgs (whitespace := lax) in
#print axioms Verif.Mapped.Vector.traversal_unstable_partial

/-- info: 'Verif.Mapped.Vector.traversal_stable_partial' depends on axioms: [propext, Classical.choice, Quot.sound] -/
#guard_msgs (whitespace := lax) in
#print axioms Verif.Mapped.Vector.traversal_stable_partial

/-- info: 'Verif.Mapped.Vector.traverse_full' depends on axioms: [propext] -/
#guard_msgs (whitespace := lax) in
#print axioms Verif.Mapped.Vector.traverse_full

/-- info: 'Verif.Mapped.Pointer.history_no_removal' depends on axioms: [propext, Classical.choice, Quot.sound] -/
#guard_msgs (whitespace := lax) in
#print axioms Verif.Mapped.Pointer.history_no_removal

/-- info: 'Verif.Mapped.Pointer.history_partial' depends on axioms: [propext, Classical.choice, Quot.sound] -/
#guard_msgs (whitespace := lax) in
#print axioms Verif.Mapped.Pointer.history_partial

/-- info: 'Verif.Mapped.Pointer.removal_partial' depends on axioms: [propext, Classical.choice, Quot.sound] -/
#guard_msgs (whitespace := lax) in
#print axioms Verif.Mapped.Pointer.removal_partial

/-- info: 'Verif.Mapped.Pointer.alias_undefined' depends on axioms: [propext] -/
#guard_msgs (whitespace := lax) in
#print axioms Verif.Mapped.Pointer.alias_undefined

/-- info: 'Verif.Mapped.Pointer.alias_violation' depends on axioms: [propext] -/
#guard_msgs (whitespace := lax) in
#print axioms Verif.Mapped.Pointer.alias_violation

/-- info: 'Verif.Mapped.Pointer.keyless_violation' depends on axioms: [propext] -/
#guard_msgs (whitespace := lax) in
#print axioms Verif.Mapped.Pointer.keyless_violation

/-- info: 'Verif.Mapped.Str.keys_own' depends on axioms: [propext, Classical.choice, Quot.sound] -/
#guard_msgs (whitespace := lax) in
#print axioms Verif.Mapped.Str.keys_own

/-- info: 'Verif.Mapped.Str.history_stable_partial' depends on axioms: [propext, Classical.choice, Quot.sound] -/
#guard_msgs (whitespace := lax) in
#print axioms Verif.Mapped.Str.history_stable_partial

/-- info: 'Verif.Mapped.Str.history_unstable' depends on axioms: [propext, Classical.choice, Quot.sound] -/
#guard_msgs (whitespace := lax) in
#print axioms Verif.Mapped.Str.history_unstable

/-- info: 'Verif.Mapped.Str.move_transparent' depends on axioms: [propext, Quot.sound] -/
#guard_msgs (whitespace := lax) in
#print axioms Verif.Mapped.Str.move_transparent

/-- info: 'Verif.Mapped.Str.copy_violation' depends on axioms: [propext, Classical.choice, Quot.sound] -/
#guard_msgs (whitespace := lax) in
#print axioms Verif.Mapped.Str.copy_violation

/-- info: 'Verif.Mapped.Str.copy_keys' depends on axioms: [propext, Quot.sound] -/
#guard_msgs (whitespace := lax) in
#print axioms Verif.Mapped.Str.copy_keys

/-- info: 'Verif.Mapped.Str.keyless_violation' depends on axioms: [propext, Classical.choice, Quot.sound] -/
#guard_msgs (whitespace := lax) in
#print axioms Verif.Mapped.Str.keyless_violation

/-- info: 'Verif.Mapped.Dual.insert_unstable' depends on axioms: [propext, Classical.choice, Quot.sound] -/
#guard_msgs (whitespace := lax) in
#print axioms Verif.Mapped.Dual.insert_unstable

/-- info: 'Verif.Mapped.Dual.insert_stable' depends on axioms: [propext, Classical.choice, Quot.sound] -/
#guard_msgs (whitespace := lax) in
#print axioms Verif.Mapped.Dual.insert_stable

/-- info: 'Verif.Mapped.Dual.history_unstable' depends on axioms: [propext, Classical.choice, Quot.sound] -/
#guard_msgs (whitespace := lax) in
#print axioms Verif.Mapped.Dual.history_unstable

/-- info: 'Verif.Mapped.Dual.history_stable_partial' depends on axioms: [propext, Classical.choice, Quot.sound] -/
#guard_msgs (whitespace := lax) in
#print axioms Verif.Mapped.Dual.history_stable_partial

/-- info: 'Verif.Mapped.Dual.remove_unstable' depends on axioms: [propext, Classical.choice, Quot.sound] -/
#guard_msgs (whitespace := lax) in
#print axioms Verif.Mapped.Dual.remove_unstable

/-- info: 'Verif.Mapped.Dual.remove_stable' depends on axioms: [propext, Classical.choice, Quot.sound] -/
#guard_msgs (whitespace := lax) in
#print axioms Verif.Mapped.Dual.remove_stable

/-- info: 'Verif.Mapped.Dual.find_full' depends on axioms: [propext] -/
#guard_msgs (whitespace := lax) in
#print axioms Verif.Mapped.Dual.find_full

/-- info: 'Verif.Mapped.Dual.insertOrAssign_unstable' depends on axioms: [propext, Classical.choice, Quot.sound] -/
#guard_msgs (whitespace := lax) in
#print axioms Verif.Mapped.Dual.insertOrAssign_unstable

/-- info: 'Verif.Mapped.Dual.insertOrAssign_stable' depends on axioms: [propext, Classical.choice, Quot.sound] -/
#guard_msgs (whitespace := lax) in
#print axioms Verif.Mapped.Dual.insertOrAssign_stable

/-- info: 'Verif.Mapped.DualStr.insert_stable_partial' depends on axioms: [propext, Classical.choice, Quot.sound] -/
#guard_msgs (whitespace := lax) in
#print axioms Verif.Mapped.DualStr.insert_stable_partial

/-- info: 'Verif.Mapped.DualStr.insert_unstable_partial' depends on axioms: [propext, Classical.choice, Quot.sound] -/
#guard_msgs (whitespace := lax) in
#print axioms Verif.Mapped.DualStr.insert_unstable_partial

/-- info: 'Verif.Mapped.DualStr.insert_ignores_name' depends on axioms: [propext, Classical.choice, Quot.sound] -/
#guard_msgs (whitespace := lax) in
#print axioms Verif.Mapped.DualStr.insert_ignores_name

/-- info: 'Verif.Mapped.DualStr.insert_violated' depends on axioms: [propext, Classical.choice, Quot.sound] -/
#guard_msgs (whitespace := lax) in
#print axioms Verif.Mapped.DualStr.insert_violated

/-- info: 'Verif.Mapped.DualStr.keys_own' depends on axioms: [propext, Classical.choice, Quot.sound] -/
#guard_msgs (whitespace := lax) in
#print axioms Verif.Mapped.DualStr.keys_own

/-- info: 'Verif.Mapped.DualStr.history_stable_partial' depends on axioms: [propext, Classical.choice, Quot.sound] -/
#guard_msgs (whitespace := lax) in
#print axioms Verif.Mapped.DualStr.history_stable_partial

/-- info: 'Verif.Mapped.DualStr.history_unstable_partial' depends on axioms: [propext, Classical.choice, Quot.sound] -/
#guard_msgs (whitespace := lax) in
#print axioms Verif.Mapped.DualStr.history_unstable_partial

/-- info: 'Verif.Mapped.DualStr.remove_stable_partial' depends on axioms: [propext, Classical.choice, Quot.sound] -/
#guard_msgs (whitespace := lax) in
#print axioms Verif.Mapped.DualStr.remove_stable_partial

/-- info: 'Verif.Mapped.DualStr.remove_full' depends on axioms: [propext, Classical.choice, Quot.sound] -/
#guard_msgs (whitespace := lax) in
#print axioms Verif.Mapped.DualStr.remove_full

/-- info: 'Verif.Mapped.DualPtr.history_partial' depends on axioms: [propext, Classical.choice, Quot.sound] -/
#guard_msgs (whitespace := lax) in
#print axioms Verif.Mapped.DualPtr.history_partial

/-- info: 'Verif.Mapped.DualPtr.insert_partial' depends on axioms: [propext, Classical.choice, Quot.sound] -/
#guard_msgs (whitespace := lax) in
#print axioms Verif.Mapped.DualPtr.insert_partial

/-- info: 'Verif.Mapped.DualPtr.insert_fails' depends on axioms: [propext, Classical.choice, Quot.sound] -/
#guard_msgs (whitespace := lax) in
#print axioms Verif.Mapped.DualPtr.insert_fails

/-- info: 'Verif.Mapped.DualPtr.removal_partial' depends on axioms: [propext, Classical.choice, Quot.sound] -/
#guard_msgs (whitespace := lax) in
#print axioms Verif.Mapped.DualPtr.removal_partial

/-- info: 'Verif.Mapped.DualPtr.insert_violation' depends on axioms: [propext, Classical.choice, Quot.sound] -/
#guard_msgs (whitespace := lax) in
#print axioms Verif.Mapped.DualPtr.insert_violation

/-- info: 'Verif.Mapped.DualPtr.insert_remove_violation' depends on axioms: [propext] -/
#guard_msgs (whitespace := lax) in
#print axioms Verif.Mapped.DualPtr.insert_remove_violation

/-- info: 'Verif.Mapped.DualPtr.keyless_undefined' depends on axioms: [propext] -/
#guard_msgs (whitespace := lax) in
#print axioms Verif.Mapped.DualPtr.keyless_undefined

/-- info: 'Verif.Mapped.DualPtr.keyless_violation' depends on axioms: [propext] -/
#guard_msgs (whitespace := lax) in
#print axioms Verif.Mapped.DualPtr.keyless_violation

/-- info: 'Verif.MapOps.mapFind_map' depends on axioms: [propext, Quot.sound] -/
#guard_msgs (whitespace := lax) in
#print axioms Verif.MapOps.mapFind_map

/-- info: 'Verif.MapOps.mapFind_unordered' depends on axioms: [propext, Classical.choice, Quot.sound] -/
#guard_msgs (whitespace := lax) in
#print axioms Verif.MapOps.mapFind_unordered

/-- info: 'Verif.SimpleQueue.linearizable_actual' depends on axioms: [propext, Classical.choice, Quot.sound] -/
#guard_msgs (whitespace := lax) in
#print axioms Verif.SimpleQueue.linearizable_actual

/-- info: 'Verif.SimpleQueue.linearizable_partial' depends on axioms: [propext, Classical.choice, Quot.sound] -/
#guard_msgs (whitespace := lax) in
#print axioms Verif.SimpleQueue.linearizable_partial

/-- info: 'Verif.SimpleQueue.linearizable_noEmpty_partial' depends on axioms: [propext, Classical.choice, Quot.sound] -/
#guard_msgs (whitespace := lax) in
#print axioms Verif.SimpleQueue.linearizable_noEmpty_partial

/-- info: 'Verif.SimpleQueue.linearizable_violation' depends on axioms: [propext, Classical.choice, Quot.sound] -/
#guard_msgs (whitespace := lax) in
#print axioms Verif.SimpleQueue.linearizable_violation

/-- info: 'Verif.SimpleQueue.no_deadlock' depends on axioms: [propext, Classical.choice, Quot.sound] -/
#guard_msgs (whitespace := lax) in
#print axioms Verif.SimpleQueue.no_deadlock

/-- info: 'Verif.SimpleQueue.no_crash' depends on axioms: [propext, Classical.choice, Quot.sound] -/
#guard_msgs (whitespace := lax) in
#print axioms Verif.SimpleQueue.no_crash

/-- info: 'Verif.SimpleQueue.own_steps_bounded' depends on axioms: [propext, Quot.sound] -/
#guard_msgs (whitespace := lax) in
#print axioms Verif.SimpleQueue.own_steps_bounded

/-- info: 'Verif.SimpleQueue.race_free' depends on axioms: [propext, Quot.sound] -/
#guard_msgs (whitespace := lax) in
#print axioms Verif.SimpleQueue.race_free

/-- info: 'Verif.SimpleQueue.other_steps_independent' depends on axioms: [propext] -/
#guard_msgs (whitespace := lax) in
#print axioms Verif.SimpleQueue.other_steps_independent

/-- info: 'Verif.SimpleQueue.conservation' depends on axioms: [propext, Classical.choice, Quot.sound] -/
#guard_msgs (whitespace := lax) in
#print axioms Verif.SimpleQueue.conservation

/-- info: 'Verif.SimpleQueue.conservation_inFlight' depends on axioms: [propext, Classical.choice, Quot.sound] -/
#guard_msgs (whitespace := lax) in
#print axioms Verif.SimpleQueue.conservation_inFlight

/-- info: 'Verif.SimpleQueue.move_target' depends on axioms: [propext, Classical.choice, Quot.sound] -/
#guard_msgs (whitespace := lax) in
#print axioms Verif.SimpleQueue.move_target

/-- info: 'Verif.SimpleQueue.move_source_partial' depends on axioms: [propext, Classical.choice, Quot.sound] -/
#guard_msgs (whitespace := lax) in
#print axioms Verif.SimpleQueue.move_source_partial

/-- info: 'Verif.SimpleQueue.move_violation' depends on axioms: [propext] -/
#guard_msgs (whitespace := lax) in
#print axioms Verif.SimpleQueue.move_violation

/-- info: 'Verif.AirLock.linearizable' depends on axioms: [propext, Classical.choice, Quot.sound] -/
#guard_msgs (whitespace := lax) in
#print axioms Verif.AirLock.linearizable

/-- info: 'Verif.AirLock.exchange' depends on axioms: [propext, Classical.choice, Quot.sound] -/
#guard_msgs (whitespace := lax) in
#print axioms Verif.AirLock.exchange

/-- info: 'Verif.AirLock.no_lost_wakeup' depends on axioms: [propext, Classical.choice, Quot.sound] -/
#guard_msgs (whitespace := lax) in
#print axioms Verif.AirLock.no_lost_wakeup

/-- info: 'Verif.AirLock.no_lost_wakeup_quiescent' depends on axioms: [propext, Classical.choice, Quot.sound] -/
#guard_msgs (whitespace := lax) in
#print axioms Verif.AirLock.no_lost_wakeup_quiescent

/-- info: 'Verif.AirLock.awake_loader_loads' depends on axioms: [propext, Classical.choice, Quot.sound] -/
#guard_msgs (whitespace := lax) in
#print axioms Verif.AirLock.awake_loader_loads

/-- info: 'Verif.AirLock.no_deadlock' depends on axioms: [propext, Classical.choice, Quot.sound] -/
#guard_msgs (whitespace := lax) in
#print axioms Verif.AirLock.no_deadlock

/-- info: 'Verif.AirLock.race_free' depends on axioms: [propext, Classical.choice, Quot.sound] -/
#guard_msgs (whitespace := lax) in
#print axioms Verif.AirLock.race_free

/-- info: 'Verif.BlockingQueue.linearizable' depends on axioms: [propext, Classical.choice, Quot.sound] -/
#guard_msgs (whitespace := lax) in
#print axioms Verif.BlockingQueue.linearizable

/-- info: 'Verif.BlockingQueue.conservation' depends on axioms: [propext, Classical.choice, Quot.sound] -/
#guard_msgs (whitespace := lax) in
#print axioms Verif.BlockingQueue.conservation

/-- info: 'Verif.BlockingQueue.linearizable_observing_partial' depends on axioms: [propext, Classical.choice, Quot.sound] -/
#guard_msgs (whitespace := lax) in
#print axioms Verif.BlockingQueue.linearizable_observing_partial

/-- info: 'Verif.BlockingQueue.no_lost_wakeup_partial' depends on axioms: [propext, Classical.choice, Quot.sound] -/
#guard_msgs (whitespace := lax) in
#print axioms Verif.BlockingQueue.no_lost_wakeup_partial

/-- info: 'Verif.BlockingQueue.no_lost_wakeup_atRest_partial' depends on axioms: [propext, Classical.choice, Quot.sound] -/
#guard_msgs (whitespace := lax) in
#print axioms Verif.BlockingQueue.no_lost_wakeup_atRest_partial

/-- info: 'Verif.BlockingQueue.notification_arrives' depends on axioms: [propext, Quot.sound] -/
#guard_msgs (whitespace := lax) in
#print axioms Verif.BlockingQueue.notification_arrives

/-- info: 'Verif.BlockingQueue.wakeup_violation' depends on axioms: [propext, Quot.sound] -/
#guard_msgs (whitespace := lax) in
#print axioms Verif.BlockingQueue.wakeup_violation

/-- info: 'Verif.BlockingQueue.sequential' depends on axioms: [propext, Quot.sound] -/
#guard_msgs (whitespace := lax) in
#print axioms Verif.BlockingQueue.sequential

/-- info: 'Verif.BlockingQueue.sequential_state' depends on axioms: [propext, Quot.sound] -/
#guard_msgs (whitespace := lax) in
#print axioms Verif.BlockingQueue.sequential_state

/-- info: 'Verif.BlockingQueue.size_partial' depends on axioms: [propext, Quot.sound] -/
#guard_msgs (whitespace := lax) in
#print axioms Verif.BlockingQueue.size_partial

/-- info: 'Verif.BlockingQueue.size_violation' depends on axioms: [propext, Classical.choice, Quot.sound] -/
#guard_msgs (whitespace := lax) in
#print axioms Verif.BlockingQueue.size_violation

/-- info: 'Verif.BlockingQueue.empty_violation' depends on axioms: [propext, Classical.choice, Quot.sound] -/
#guard_msgs (whitespace := lax) in
#print axioms Verif.BlockingQueue.empty_violation

/-- info: 'Verif.BlockingQueue.empty_violation_atRest' depends on axioms: [propext] -/
#guard_msgs (whitespace := lax) in
#print axioms Verif.BlockingQueue.empty_violation_atRest

/-- info: 'Verif.BlockingQueue.peek_violation' depends on axioms: [propext, Classical.choice, Quot.sound] -/
#guard_msgs (whitespace := lax) in
#print axioms Verif.BlockingQueue.peek_violation

/-- info: 'Verif.BlockingQueue.no_deadlock' depends on axioms: [propext, Classical.choice, Quot.sound] -/
#guard_msgs (whitespace := lax) in
#print axioms Verif.BlockingQueue.no_deadlock

/-- info: 'Verif.BlockingQueue.no_crash' depends on axioms: [propext, Classical.choice, Quot.sound] -/
#guard_msgs (whitespace := lax) in
#print axioms Verif.BlockingQueue.no_crash

/-- info: 'Verif.BlockingQueue.own_steps_bounded' depends on axioms: [propext, Classical.choice, Quot.sound] -/
#guard_msgs (whitespace := lax) in
#print axioms Verif.BlockingQueue.own_steps_bounded

/-- info: 'Verif.BlockingQueue.race_free' depends on axioms: [propext, Classical.choice, Quot.sound] -/
#guard_msgs (whitespace := lax) in
#print axioms Verif.BlockingQueue.race_free

/-- info: 'Verif.BlockingQueue.other_steps_independent' depends on axioms: [propext] -/
#guard_msgs (whitespace := lax) in
#print axioms Verif.BlockingQueue.other_steps_independent

/-- info: 'Verif.BlockingQueue.move_target_partial' depends on axioms: [propext, Classical.choice, Quot.sound] -/
#guard_msgs (whitespace := lax) in
#print axioms Verif.BlockingQueue.move_target_partial

/-- info: 'Verif.BlockingQueue.move_source' depends on axioms: [propext, Classical.choice, Quot.sound] -/
#guard_msgs (whitespace := lax) in
#print axioms Verif.BlockingQueue.move_source

/-- info: 'Verif.BlockingQueue.move_target_sequential_partial' depends on axioms: [propext, Classical.choice, Quot.sound] -/
#guard_msgs (whitespace := lax) in
#print axioms Verif.BlockingQueue.move_target_sequential_partial

/-- info: 'Verif.BlockingQueue.move_violation' depends on axioms: [propext] -/
#guard_msgs (whitespace := lax) in
#print axioms Verif.BlockingQueue.move_violation

/-- info: 'Verif.BlockingQueue.move_source_violation' depends on axioms: [propext] -/
#guard_msgs (whitespace := lax) in
#print axioms Verif.BlockingQueue.move_source_violation

/-- info: 'Verif.BlockingPriorityQueue.linearizable' depends on axioms: [propext, Classical.choice, Quot.sound] -/
#guard_msgs (whitespace := lax) in
#print axioms Verif.BlockingPriorityQueue.linearizable

/-- info: 'Verif.BlockingPriorityQueue.conservation' depends on axioms: [propext, Classical.choice, Quot.sound] -/
#guard_msgs (whitespace := lax) in
#print axioms Verif.BlockingPriorityQueue.conservation

/-- info: 'Verif.BlockingPriorityQueue.linearizable_observing_partial' depends on axioms: [propext, Classical.choice, Quot.sound] -/
#guard_msgs (whitespace := lax) in
#print axioms Verif.BlockingPriorityQueue.linearizable_observing_partial

/-- info: 'Verif.BlockingPriorityQueue.no_lost_wakeup_partial' depends on axioms: [propext, Classical.choice, Quot.sound] -/
#guard_msgs (whitespace := lax) in
#print axioms Verif.BlockingPriorityQueue.no_lost_wakeup_partial

/-- info: 'Verif.BlockingPriorityQueue.no_lost_wakeup_atRest_partial' depends on axioms: [propext, Classical.choice, Quot.sound] -/
#guard_msgs (whitespace := lax) in
#print axioms Verif.BlockingPriorityQueue.no_lost_wakeup_atRest_partial

/-- info: 'Verif.BlockingPriorityQueue.notification_arrives' depends on axioms: [propext, Quot.sound] -/
#guard_msgs (whitespace := lax) in
#print axioms Verif.BlockingPriorityQueue.notification_arrives

/-- info: 'Verif.BlockingPriorityQueue.wakeup_violation' depends on axioms: [propext, Quot.sound] -/
#guard_msgs (whitespace := lax) in
#print axioms Verif.BlockingPriorityQueue.wakeup_violation

/-- info: 'Verif.BlockingPriorityQueue.sequential_partial' depends on axioms: [propext, Quot.sound] -/
#guard_msgs (whitespace := lax) in
#print axioms Verif.BlockingPriorityQueue.sequential_partial

/-- info: 'Verif.BlockingPriorityQueue.empty_violation' depends on axioms: [propext, Classical.choice, Quot.sound] -/
#guard_msgs (whitespace := lax) in
#print axioms Verif.BlockingPriorityQueue.empty_violation

/-- info: 'Verif.BlockingPriorityQueue.peek_violation' depends on axioms: [propext, Classical.choice, Quot.sound] -/
#guard_msgs (whitespace := lax) in
#print axioms Verif.BlockingPriorityQueue.peek_violation

/-- info: 'Verif.BlockingPriorityQueue.no_deadlock' depends on axioms: [propext, Classical.choice, Quot.sound] -/
#guard_msgs (whitespace := lax) in
#print axioms Verif.BlockingPriorityQueue.no_deadlock

/-- info: 'Verif.BlockingPriorityQueue.no_crash' depends on axioms: [propext, Classical.choice, Quot.sound] -/
#guard_msgs (whitespace := lax) in
#print axioms Verif.BlockingPriorityQueue.no_crash

/-- info: 'Verif.BlockingPriorityQueue.own_steps_bounded' depends on axioms: [propext, Classical.choice, Quot.sound] -/
#guard_msgs (whitespace := lax) in
#print axioms Verif.BlockingPriorityQueue.own_steps_bounded

/-- info: 'Verif.BlockingPriorityQueue.race_free' depends on axioms: [propext, Classical.choice, Quot.sound] -/
#guard_msgs (whitespace := lax) in
#print axioms Verif.BlockingPriorityQueue.race_free

/-- info: 'Verif.BlockingPriorityQueue.other_steps_independent' depends on axioms: [propext] -/
#guard_msgs (whitespace := lax) in
#print axioms Verif.BlockingPriorityQueue.other_steps_independent

/-- info: 'Verif.BlockingPriorityQueue.move_target_partial' depends on axioms: [propext, Classical.choice, Quot.sound] -/
#guard_msgs (whitespace := lax) in
#print axioms Verif.BlockingPriorityQueue.move_target_partial

/-- info: 'Verif.BlockingPriorityQueue.move_source' depends on axioms: [propext, Classical.choice, Quot.sound] -/
#guard_msgs (whitespace := lax) in
#print axioms Verif.BlockingPriorityQueue.move_source

/-- info: 'Verif.BlockingPriorityQueue.move_violation' depends on axioms: [propext] -/
#guard_msgs (whitespace := lax) in
#print axioms Verif.BlockingPriorityQueue.move_violation

/-- info: 'Verif.WorkBlock.history' depends on axioms: [propext, Quot.sound] -/
#guard_msgs (whitespace := lax) in
#print axioms Verif.WorkBlock.history

/-- info: 'Verif.WorkBlock.history_task' depends on axioms: [propext, Quot.sound] -/
#guard_msgs (whitespace := lax) in
#print axioms Verif.WorkBlock.history_task

/-- info: 'Verif.WorkBlock.future_of_execution' depends on axioms: [propext, Quot.sound] -/
#guard_msgs (whitespace := lax) in
#print axioms Verif.WorkBlock.future_of_execution

/-- info: 'Verif.WorkBlock.future_stable' depends on axioms: [propext] -/
#guard_msgs (whitespace := lax) in
#print axioms Verif.WorkBlock.future_stable

/-- info: 'Verif.WorkBlock.default_throws' depends on axioms: [propext] -/
#guard_msgs (whitespace := lax) in
#print axioms Verif.WorkBlock.default_throws

/-- info: 'Verif.WorkBlock.ofTask_breaks_future' depends on axioms: [propext, Quot.sound] -/
#guard_msgs (whitespace := lax) in
#print axioms Verif.WorkBlock.ofTask_breaks_future

/-- info: 'Verif.WorkBlock.updateTask_retrieved' depends on axioms: [propext] -/
#guard_msgs (whitespace := lax) in
#print axioms Verif.WorkBlock.updateTask_retrieved

/-- info: 'Verif.WorkBlock.updateTask_spent' depends on axioms: [propext] -/
#guard_msgs (whitespace := lax) in
#print axioms Verif.WorkBlock.updateTask_spent

/-- info: 'Verif.WorkBlock.void_drops_exceptions' depends on axioms: [propext] -/
#guard_msgs (whitespace := lax) in
#print axioms Verif.WorkBlock.void_drops_exceptions

/-- info: 'Verif.WorkBlock.moved_from' depends on axioms: [propext] -/
#guard_msgs (whitespace := lax) in
#print axioms Verif.WorkBlock.moved_from

/-- info: 'Verif.WorkBlock.moveAssign_breaks' depends on axioms: [propext, Quot.sound] -/
#guard_msgs (whitespace := lax) in
#print axioms Verif.WorkBlock.moveAssign_breaks

/-- info: 'Verif.WorkQueue.Full.refines' depends on axioms: [propext, Classical.choice, Quot.sound] -/
#guard_msgs (whitespace := lax) in
#print axioms Verif.WorkQueue.Full.refines

/-- info: 'Verif.WorkQueue.Full.at_most_once' depends on axioms: [propext, Classical.choice, Quot.sound] -/
#guard_msgs (whitespace := lax) in
#print axioms Verif.WorkQueue.Full.at_most_once

/-- info: 'Verif.WorkQueue.Full.exactly_once' depends on axioms: [propext, Classical.choice, Quot.sound] -/
#guard_msgs (whitespace := lax) in
#print axioms Verif.WorkQueue.Full.exactly_once

/-- info: 'Verif.WorkQueue.at_most_once' depends on axioms: [propext, Classical.choice, Quot.sound] -/
#guard_msgs (whitespace := lax) in
#print axioms Verif.WorkQueue.at_most_once

/-- info: 'Verif.WorkQueue.exactly_once' depends on axioms: [propext, Classical.choice, Quot.sound] -/
#guard_msgs (whitespace := lax) in
#print axioms Verif.WorkQueue.exactly_once

/-- info: 'Verif.WorkQueue.zero_workers' depends on axioms: [propext, Classical.choice, Quot.sound] -/
#guard_msgs (whitespace := lax) in
#print axioms Verif.WorkQueue.zero_workers

/-- info: 'Verif.WorkQueue.twice_violation' depends on axioms: [propext] -/
#guard_msgs (whitespace := lax) in
#print axioms Verif.WorkQueue.twice_violation

/-- info: 'Verif.WorkQueue.Full.alone_history' depends on axioms: [propext, Classical.choice, Quot.sound] -/
#guard_msgs (whitespace := lax) in
#print axioms Verif.WorkQueue.Full.alone_history

/-- info: 'Verif.WorkQueue.fifo' depends on axioms: [propext, Quot.sound] -/
#guard_msgs (whitespace := lax) in
#print axioms Verif.WorkQueue.fifo

/-- info: 'Verif.WorkQueue.high_first' depends on axioms: [propext] -/
#guard_msgs (whitespace := lax) in
#print axioms Verif.WorkQueue.high_first

/-- info: 'Verif.WorkQueue.alone_history' depends on axioms: [propext, Quot.sound] -/
#guard_msgs (whitespace := lax) in
#print axioms Verif.WorkQueue.alone_history

/-- info: 'Verif.WorkQueue.alone_exists_history' depends on axioms: [propext, Quot.sound] -/
#guard_msgs (whitespace := lax) in
#print axioms Verif.WorkQueue.alone_exists_history

/-- info: 'Verif.WorkQueue.fetch_by_itself' depends on axioms: [propext, Quot.sound] -/
#guard_msgs (whitespace := lax) in
#print axioms Verif.WorkQueue.fetch_by_itself

/-- info: 'Verif.WorkQueue.low_turn_partial' depends on axioms: [propext, Classical.choice, Quot.sound] -/
#guard_msgs (whitespace := lax) in
#print axioms Verif.WorkQueue.low_turn_partial

/-- info: 'Verif.WorkQueue.medium_first_partial' depends on axioms: [propext, Classical.choice, Quot.sound] -/
#guard_msgs (whitespace := lax) in
#print axioms Verif.WorkQueue.medium_first_partial

/-- info: 'Verif.WorkQueue.turns_overlap_violation' depends on axioms: [propext, Quot.sound] -/
#guard_msgs (whitespace := lax) in
#print axioms Verif.WorkQueue.turns_overlap_violation

/-- info: 'Verif.WorkQueue.no_starvation_partial' depends on axioms: [propext, Classical.choice, Quot.sound] -/
#guard_msgs (whitespace := lax) in
#print axioms Verif.WorkQueue.no_starvation_partial

/-- info: 'Verif.WorkQueue.starvation_violation' depends on axioms: [propext, Quot.sound] -/
#guard_msgs (whitespace := lax) in
#print axioms Verif.WorkQueue.starvation_violation

/-- info: 'Verif.WorkQueue.Full.close_terminates_partial' depends on axioms: [propext, Classical.choice, Quot.sound] -/
#guard_msgs (whitespace := lax) in
#print axioms Verif.WorkQueue.Full.close_terminates_partial

/-- info: 'Verif.WorkQueue.Full.close_bounded' depends on axioms: [propext, Classical.choice, Quot.sound] -/
#guard_msgs (whitespace := lax) in
#print axioms Verif.WorkQueue.Full.close_bounded

/-- info: 'Verif.WorkQueue.Full.closed_exited_partial' depends on axioms: [propext, Classical.choice, Quot.sound] -/
#guard_msgs (whitespace := lax) in
#print axioms Verif.WorkQueue.Full.closed_exited_partial

/-- info: 'Verif.WorkQueue.close_terminates_partial' depends on axioms: [propext, Classical.choice, Quot.sound] -/
#guard_msgs (whitespace := lax) in
#print axioms Verif.WorkQueue.close_terminates_partial

/-- info: 'Verif.WorkQueue.close_bounded' depends on axioms: [propext, Classical.choice, Quot.sound] -/
#guard_msgs (whitespace := lax) in
#print axioms Verif.WorkQueue.close_bounded

/-- info: 'Verif.WorkQueue.closed_exited_partial' depends on axioms: [propext, Classical.choice, Quot.sound] -/
#guard_msgs (whitespace := lax) in
#print axioms Verif.WorkQueue.closed_exited_partial

/-- info: 'Verif.WorkQueue.closed_by_one' depends on axioms: [propext, Quot.sound] -/
#guard_msgs (whitespace := lax) in
#print axioms Verif.WorkQueue.closed_by_one

/-- info: 'Verif.WorkQueue.two_closers_violation' depends on axioms: [propext] -/
#guard_msgs (whitespace := lax) in
#print axioms Verif.WorkQueue.two_closers_violation

/-- info: 'Verif.WorkQueue.add_wakes_partial' depends on axioms: [propext, Classical.choice, Quot.sound] -/
#guard_msgs (whitespace := lax) in
#print axioms Verif.WorkQueue.add_wakes_partial

/-- info: 'Verif.WorkQueue.vector_wakes' depends on axioms: [propext, Quot.sound] -/
#guard_msgs (whitespace := lax) in
#print axioms Verif.WorkQueue.vector_wakes

/-- info: 'Verif.WorkQueue.vector_wakes_alone' depends on axioms: [propext, Quot.sound] -/
#guard_msgs (whitespace := lax) in
#print axioms Verif.WorkQueue.vector_wakes_alone

/-- info: 'Verif.WorkQueue.timeout_fetches_partial' depends on axioms: [propext, Quot.sound] -/
#guard_msgs (whitespace := lax) in
#print axioms Verif.WorkQueue.timeout_fetches_partial

/-- info: 'Verif.WorkQueue.lost_wakeup_violation' depends on axioms: [propext] -/
#guard_msgs (whitespace := lax) in
#print axioms Verif.WorkQueue.lost_wakeup_violation

/-- info: 'Verif.WorkQueue.not_notified_violation' depends on axioms: [propext] -/
#guard_msgs (whitespace := lax) in
#print axioms Verif.WorkQueue.not_notified_violation

/-- info: 'Verif.WorkQueue.workerCount_alone' depends on axioms: [propext, Quot.sound] -/
#guard_msgs (whitespace := lax) in
#print axioms Verif.WorkQueue.workerCount_alone

/-- info: 'Verif.WorkQueue.isEmpty_alone_partial' depends on axioms: [propext, Quot.sound] -/
#guard_msgs (whitespace := lax) in
#print axioms Verif.WorkQueue.isEmpty_alone_partial

/-- info: 'Verif.WorkQueue.numBlock_alone_partial' depends on axioms: [propext, Quot.sound] -/
#guard_msgs (whitespace := lax) in
#print axioms Verif.WorkQueue.numBlock_alone_partial

/-- info: 'Verif.WorkQueue.isEmpty_violation' depends on axioms: [propext, Quot.sound] -/
#guard_msgs (whitespace := lax) in
#print axioms Verif.WorkQueue.isEmpty_violation

/-- info: 'Verif.WorkQueue.isEmpty_flag_violation' depends on axioms: [propext] -/
#guard_msgs (whitespace := lax) in
#print axioms Verif.WorkQueue.isEmpty_flag_violation

/-- info: 'Verif.WorkQueue.Full.closed_exited' depends on axioms: [propext, Classical.choice, Quot.sound] -/
#guard_msgs (whitespace := lax) in
#print axioms Verif.WorkQueue.Full.closed_exited

/-- info: 'Verif.WorkQueue.Full.closed_silent' depends on axioms: [propext, Classical.choice, Quot.sound] -/
#guard_msgs (whitespace := lax) in
#print axioms Verif.WorkQueue.Full.closed_silent

/-- info: 'Verif.WorkQueue.Full.closed_silent_partial' depends on axioms: [propext, Classical.choice, Quot.sound] -/
#guard_msgs (whitespace := lax) in
#print axioms Verif.WorkQueue.Full.closed_silent_partial

/-- info: 'Verif.WorkQueue.closed_exited' depends on axioms: [propext, Classical.choice, Quot.sound] -/
#guard_msgs (whitespace := lax) in
#print axioms Verif.WorkQueue.closed_exited

/-- info: 'Verif.WorkQueue.closed_silent' depends on axioms: [propext, Classical.choice, Quot.sound] -/
#guard_msgs (whitespace := lax) in
#print axioms Verif.WorkQueue.closed_silent

/-- info: 'Verif.WorkQueue.closed_silent_partial' depends on axioms: [propext, Classical.choice, Quot.sound] -/
#guard_msgs (whitespace := lax) in
#print axioms Verif.WorkQueue.closed_silent_partial

/-- info: 'Verif.Mapped.Several.mapped_unstable_partial' depends on axioms: [propext, Classical.choice, Quot.sound] -/
#guard_msgs (whitespace := lax) in
#print axioms Verif.Mapped.Several.mapped_unstable_partial

/-- info: 'Verif.Mapped.Several.mapped_stable_partial' depends on axioms: [propext, Classical.choice, Quot.sound] -/
#guard_msgs (whitespace := lax) in
#print axioms Verif.Mapped.Several.mapped_stable_partial

/-- info: 'Verif.Mapped.Several.dual_unstable' depends on axioms: [propext, Classical.choice, Quot.sound] -/
#guard_msgs (whitespace := lax) in
#print axioms Verif.Mapped.Several.dual_unstable

/-- info: 'Verif.Mapped.Several.careful_dual_unstable' depends on axioms: [propext, Quot.sound] -/
#guard_msgs (whitespace := lax) in
#print axioms Verif.Mapped.Several.careful_dual_unstable

/-- info: 'Verif.Mapped.Several.dual_stable_partial' depends on axioms: [propext, Classical.choice, Quot.sound] -/
#guard_msgs (whitespace := lax) in
#print axioms Verif.Mapped.Several.dual_stable_partial

/-- info: 'Verif.Mapped.Several.copy_emptied_violation' depends on axioms: [propext] -/
#guard_msgs (whitespace := lax) in
#print axioms Verif.Mapped.Several.copy_emptied_violation

/-- info: 'Verif.Mapped.Several.moved_from_violation' depends on axioms: [propext] -/
#guard_msgs (whitespace := lax) in
#print axioms Verif.Mapped.Several.moved_from_violation

/-- info: 'Verif.Mapped.Several.moved_from_vector_violation' depends on axioms: [propext] -/
#guard_msgs (whitespace := lax) in
#print axioms Verif.Mapped.Several.moved_from_vector_violation

/-- info: 'Verif.Mapped.SeveralPtr.mapped_partial' depends on axioms: [propext, Classical.choice, Quot.sound] -/
#guard_msgs (whitespace := lax) in
#print axioms Verif.Mapped.SeveralPtr.mapped_partial

/-- info: 'Verif.Mapped.SeveralPtr.mapped_no_removal' depends on axioms: [propext, Classical.choice, Quot.sound] -/
#guard_msgs (whitespace := lax) in
#print axioms Verif.Mapped.SeveralPtr.mapped_no_removal

/-- info: 'Verif.Mapped.SeveralPtr.dual_partial' depends on axioms: [propext, Classical.choice, Quot.sound] -/
#guard_msgs (whitespace := lax) in
#print axioms Verif.Mapped.SeveralPtr.dual_partial

/-- info: 'Verif.Mapped.SeveralPtr.Owned.none_left' depends on axioms: [propext] -/
#guard_msgs (whitespace := lax) in
#print axioms Verif.Mapped.SeveralPtr.Owned.none_left

/-- info: 'Verif.Mapped.SeveralPtr.moved_from_violation' depends on axioms: [propext] -/
#guard_msgs (whitespace := lax) in
#print axioms Verif.Mapped.SeveralPtr.moved_from_violation

/-- info: 'Verif.Block.Vector.range_assign_partial' depends on axioms: [propext, Classical.choice, Quot.sound] -/
#guard_msgs (whitespace := lax) in
#print axioms Verif.Block.Vector.range_assign_partial

/-- info: 'Verif.Block.Vector.range_move_partial' depends on axioms: [propext, Classical.choice, Quot.sound] -/
#guard_msgs (whitespace := lax) in
#print axioms Verif.Block.Vector.range_move_partial

/-- info: 'Verif.Block.Vector.range_full_undefined' depends on axioms: [propext, Classical.choice, Quot.sound] -/
#guard_msgs (whitespace := lax) in
#print axioms Verif.Block.Vector.range_full_undefined

/-- info: 'Verif.Block.Deque.range_assign_partial' depends on axioms: [propext, Classical.choice, Quot.sound] -/
#guard_msgs (whitespace := lax) in
#print axioms Verif.Block.Deque.range_assign_partial

/-- info: 'Verif.Block.Deque.range_move_partial' depends on axioms: [propext, Classical.choice, Quot.sound] -/
#guard_msgs (whitespace := lax) in
#print axioms Verif.Block.Deque.range_move_partial

/-- info: 'Verif.Block.Deque.range_full_undefined' depends on axioms: [propext, Classical.choice, Quot.sound] -/
#guard_msgs (whitespace := lax) in
#print axioms Verif.Block.Deque.range_full_undefined

/-- info: 'Verif.Block.Mixed.range_assign_partial' depends on axioms: [propext, Classical.choice, Quot.sound] -/
#guard_msgs (whitespace := lax) in
#print axioms Verif.Block.Mixed.range_assign_partial

/-- info: 'Verif.Block.Mixed.range_move_partial' depends on axioms: [propext, Classical.choice, Quot.sound] -/
#guard_msgs (whitespace := lax) in
#print axioms Verif.Block.Mixed.range_move_partial

/-- info: 'Verif.Block.Mixed.programs_partial' depends on axioms: [propext, Classical.choice, Quot.sound] -/
#guard_msgs (whitespace := lax) in
#print axioms Verif.Block.Mixed.programs_partial

/-- info: 'Verif.Block.Mixed.lifecycle_partial' depends on axioms: [propext, Classical.choice, Quot.sound] -/
#guard_msgs (whitespace := lax) in
#print axioms Verif.Block.Mixed.lifecycle_partial

/-- info: 'Verif.SimpleQueue.throw_no_effect' depends on axioms: [propext, Classical.choice, Quot.sound] -/
#guard_msgs (whitespace := lax) in
#print axioms Verif.SimpleQueue.throw_no_effect

/-- info: 'Verif.SimpleQueue.throw_result' depends on axioms: [propext] -/
#guard_msgs (whitespace := lax) in
#print axioms Verif.SimpleQueue.throw_result

/-- info: 'Verif.SimpleQueue.throw_releases_locks' depends on axioms: [propext, Classical.choice, Quot.sound] -/
#guard_msgs (whitespace := lax) in
#print axioms Verif.SimpleQueue.throw_releases_locks

/-- info: 'Verif.BlockingQueue.throw_no_effect_partial' depends on axioms: [propext, Classical.choice, Quot.sound] -/
#guard_msgs (whitespace := lax) in
#print axioms Verif.BlockingQueue.throw_no_effect_partial

/-- info: 'Verif.BlockingQueue.throw_result' depends on axioms: [propext, Quot.sound] -/
#guard_msgs (whitespace := lax) in
#print axioms Verif.BlockingQueue.throw_result

/-- info: 'Verif.BlockingQueue.throw_releases_locks' depends on axioms: [propext, Classical.choice, Quot.sound] -/
#guard_msgs (whitespace := lax) in
#print axioms Verif.BlockingQueue.throw_releases_locks

/-- info: 'Verif.BlockingQueue.throw_empty_violation' depends on axioms: [propext, Classical.choice, Quot.sound] -/
#guard_msgs (whitespace := lax) in
#print axioms Verif.BlockingQueue.throw_empty_violation

/-- info: 'Verif.BlockingQueue.throw_peek_violation' depends on axioms: [propext, Classical.choice, Quot.sound] -/
#guard_msgs (whitespace := lax) in
#print axioms Verif.BlockingQueue.throw_peek_violation

/-- info: 'Verif.BlockingQueue.throw_wakeup_violation' depends on axioms: [propext, Quot.sound] -/
#guard_msgs (whitespace := lax) in
#print axioms Verif.BlockingQueue.throw_wakeup_violation

/-- info: 'Verif.BlockingPriorityQueue.throw_no_effect_partial' depends on axioms: [propext, Classical.choice, Quot.sound] -/
#guard_msgs (whitespace := lax) in
#print axioms Verif.BlockingPriorityQueue.throw_no_effect_partial

/-- info: 'Verif.BlockingPriorityQueue.throw_result' depends on axioms: [propext, Quot.sound] -/
#guard_msgs (whitespace := lax) in
#print axioms Verif.BlockingPriorityQueue.throw_result

/-- info: 'Verif.BlockingPriorityQueue.throw_releases_locks' depends on axioms: [propext, Classical.choice, Quot.sound] -/
#guard_msgs (whitespace := lax) in
#print axioms Verif.BlockingPriorityQueue.throw_releases_locks

/-- info: 'Verif.BlockingPriorityQueue.throw_empty_violation' depends on axioms: [propext, Classical.choice, Quot.sound] -/
#guard_msgs (whitespace := lax) in
#print axioms Verif.BlockingPriorityQueue.throw_empty_violation

/-- info: 'Verif.BlockingPriorityQueue.throw_peek_violation' depends on axioms: [propext, Classical.choice, Quot.sound] -/
#guard_msgs (whitespace := lax) in
#print axioms Verif.BlockingPriorityQueue.throw_peek_violation

/-- info: 'Verif.BlockingPriorityQueue.throw_wakeup_violation' depends on axioms: [propext, Quot.sound] -/
#guard_msgs (whitespace := lax) in
#print axioms Verif.BlockingPriorityQueue.throw_wakeup_violation

/-- info: 'Verif.Block.Vector.no_memory_partial' depends on axioms: [propext, Classical.choice, Quot.sound] -/
#guard_msgs (whitespace := lax) in
#print axioms Verif.Block.Vector.no_memory_partial

/-- info: 'Verif.Block.Vector.no_memory_iff' depends on axioms: [propext, Classical.choice, Quot.sound] -/
#guard_msgs (whitespace := lax) in
#print axioms Verif.Block.Vector.no_memory_iff

/-- info: 'Verif.Block.Vector.after_failures_partial' depends on axioms: [propext, Classical.choice, Quot.sound] -/
#guard_msgs (whitespace := lax) in
#print axioms Verif.Block.Vector.after_failures_partial

/-- info: 'Verif.Block.Vector.failures_no_leak_partial' depends on axioms: [propext, Classical.choice, Quot.sound] -/
#guard_msgs (whitespace := lax) in
#print axioms Verif.Block.Vector.failures_no_leak_partial

/-- info: 'Verif.Block.Vector.no_memory_new_violation' depends on axioms: [propext, Classical.choice, Quot.sound] -/
#guard_msgs (whitespace := lax) in
#print axioms Verif.Block.Vector.no_memory_new_violation

/-- info: 'Verif.Block.Vector.element_throw_partial' depends on axioms: [propext, Classical.choice, Quot.sound] -/
#guard_msgs (whitespace := lax) in
#print axioms Verif.Block.Vector.element_throw_partial

/-- info: 'Verif.Block.Vector.element_throw_violation' depends on axioms: [propext, Classical.choice, Quot.sound] -/
#guard_msgs (whitespace := lax) in
#print axioms Verif.Block.Vector.element_throw_violation

/-- info: 'Verif.Block.Vector.assign_throw_partial' depends on axioms: [propext, Classical.choice, Quot.sound] -/
#guard_msgs (whitespace := lax) in
#print axioms Verif.Block.Vector.assign_throw_partial

/-- info: 'Verif.Block.Deque.no_memory_partial' depends on axioms: [propext, Classical.choice, Quot.sound] -/
#guard_msgs (whitespace := lax) in
#print axioms Verif.Block.Deque.no_memory_partial

/-- info: 'Verif.Block.Deque.no_memory_iff_partial' depends on axioms: [propext, Classical.choice, Quot.sound] -/
#guard_msgs (whitespace := lax) in
#print axioms Verif.Block.Deque.no_memory_iff_partial

/-- info: 'Verif.Block.Deque.after_failures_partial' depends on axioms: [propext, Classical.choice, Quot.sound] -/
#guard_msgs (whitespace := lax) in
#print axioms Verif.Block.Deque.after_failures_partial

/-- info: 'Verif.Block.Deque.failures_no_leak_partial' depends on axioms: [propext, Classical.choice, Quot.sound] -/
#guard_msgs (whitespace := lax) in
#print axioms Verif.Block.Deque.failures_no_leak_partial

/-- info: 'Verif.Block.Deque.no_memory_new_violation' depends on axioms: [propext, Classical.choice, Quot.sound] -/
#guard_msgs (whitespace := lax) in
#print axioms Verif.Block.Deque.no_memory_new_violation

/-- info: 'Verif.Block.Deque.element_throw_partial' depends on axioms: [propext, Classical.choice, Quot.sound] -/
#guard_msgs (whitespace := lax) in
#print axioms Verif.Block.Deque.element_throw_partial

/-- info: 'Verif.Block.Deque.element_throw_violation' depends on axioms: [propext, Classical.choice, Quot.sound] -/
#guard_msgs (whitespace := lax) in
#print axioms Verif.Block.Deque.element_throw_violation

/-- info: 'Verif.Block.Deque.element_throw_front_violation' depends on axioms: [propext, Classical.choice, Quot.sound] -/
#guard_msgs (whitespace := lax) in
#print axioms Verif.Block.Deque.element_throw_front_violation

/-- info: 'Verif.Block.Deque.assign_throw_partial' depends on axioms: [propext, Classical.choice, Quot.sound] -/
#guard_msgs (whitespace := lax) in
#print axioms Verif.Block.Deque.assign_throw_partial

/-- info: 'Verif.Mapped.Vector.no_effect_partial' depends on axioms: [propext] -/
#guard_msgs (whitespace := lax) in
#print axioms Verif.Mapped.Vector.no_effect_partial

/-- info: 'Verif.Mapped.Vector.no_effect_runs_partial' depends on axioms: [propext, Classical.choice, Quot.sound] -/
#guard_msgs (whitespace := lax) in
#print axioms Verif.Mapped.Vector.no_effect_runs_partial

/-- info: 'Verif.Mapped.Vector.after_failures_unstable_partial' depends on axioms: [propext, Classical.choice, Quot.sound] -/
#guard_msgs (whitespace := lax) in
#print axioms Verif.Mapped.Vector.after_failures_unstable_partial

/-- info: 'Verif.Mapped.Vector.after_failures_stable_partial' depends on axioms: [propext, Classical.choice, Quot.sound] -/
#guard_msgs (whitespace := lax) in
#print axioms Verif.Mapped.Vector.after_failures_stable_partial

/-- info: 'Verif.Mapped.Vector.map_throw_violation' depends on axioms: [propext, Classical.choice, Quot.sound] -/
#guard_msgs (whitespace := lax) in
#print axioms Verif.Mapped.Vector.map_throw_violation

/-- info: 'Verif.Mapped.Vector.element_throw_violation' depends on axioms: [propext, Classical.choice, Quot.sound] -/
#guard_msgs (whitespace := lax) in
#print axioms Verif.Mapped.Vector.element_throw_violation

/-- info: 'Verif.Mapped.Vector.failure_unstable' depends on axioms: [propext, Classical.choice, Quot.sound] -/
#guard_msgs (whitespace := lax) in
#print axioms Verif.Mapped.Vector.failure_unstable

/-- info: 'Verif.Mapped.Vector.tolerated_unstable' depends on axioms: [propext] -/
#guard_msgs (whitespace := lax) in
#print axioms Verif.Mapped.Vector.tolerated_unstable

/-- info: 'Verif.Mapped.Vector.tolerated_stable' depends on axioms: [propext, Quot.sound] -/
#guard_msgs (whitespace := lax) in
#print axioms Verif.Mapped.Vector.tolerated_stable

/-- info: 'Verif.Mapped.Vector.failure_stable_partial' depends on axioms: [propext, Classical.choice, Quot.sound] -/
#guard_msgs (whitespace := lax) in
#print axioms Verif.Mapped.Vector.failure_stable_partial

/-- info: 'Verif.Mapped.Dual.no_effect_partial' depends on axioms: [propext] -/
#guard_msgs (whitespace := lax) in
#print axioms Verif.Mapped.Dual.no_effect_partial

/-- info: 'Verif.Mapped.Dual.no_effect_runs_partial' depends on axioms: [propext, Classical.choice, Quot.sound] -/
#guard_msgs (whitespace := lax) in
#print axioms Verif.Mapped.Dual.no_effect_runs_partial

/-- info: 'Verif.Mapped.Dual.after_failures_unstable' depends on axioms: [propext, Classical.choice, Quot.sound] -/
#guard_msgs (whitespace := lax) in
#print axioms Verif.Mapped.Dual.after_failures_unstable

/-- info: 'Verif.Mapped.Dual.after_failures_stable_partial' depends on axioms: [propext, Classical.choice, Quot.sound] -/
#guard_msgs (whitespace := lax) in
#print axioms Verif.Mapped.Dual.after_failures_stable_partial

/-- info: 'Verif.Mapped.Dual.map_throw_violation' depends on axioms: [propext, Classical.choice, Quot.sound] -/
#guard_msgs (whitespace := lax) in
#print axioms Verif.Mapped.Dual.map_throw_violation

/-- info: 'Verif.Mapped.Dual.map2_throw_violation' depends on axioms: [propext, Classical.choice, Quot.sound] -/
#guard_msgs (whitespace := lax) in
#print axioms Verif.Mapped.Dual.map2_throw_violation

/-- info: 'Verif.Mapped.Dual.assign_throw_violation' depends on axioms: [propext, Classical.choice, Quot.sound] -/
#guard_msgs (whitespace := lax) in
#print axioms Verif.Mapped.Dual.assign_throw_violation

/-- info: 'Verif.Mapped.Dual.element_throw_violation' depends on axioms: [propext, Classical.choice, Quot.sound] -/
#guard_msgs (whitespace := lax) in
#print axioms Verif.Mapped.Dual.element_throw_violation

/-- info: 'Verif.Mapped.Dual.failure_unstable' depends on axioms: [propext, Classical.choice, Quot.sound] -/
#guard_msgs (whitespace := lax) in
#print axioms Verif.Mapped.Dual.failure_unstable

/-- info: 'Verif.Mapped.Dual.tolerated_unstable' depends on axioms: [propext] -/
#guard_msgs (whitespace := lax) in
#print axioms Verif.Mapped.Dual.tolerated_unstable

/-- info: 'Verif.Mapped.Dual.tolerated_stable' depends on axioms: [propext, Quot.sound] -/
#guard_msgs (whitespace := lax) in
#print axioms Verif.Mapped.Dual.tolerated_stable

/-- info: 'Verif.Mapped.Dual.failure_stable_partial' depends on axioms: [propext, Classical.choice, Quot.sound] -/
#guard_msgs (whitespace := lax) in
#print axioms Verif.Mapped.Dual.failure_stable_partial

/-- info: 'Verif.Mapped.Vector.remove_throw_stable_partial' depends on axioms: [propext, Classical.choice, Quot.sound] -/
#guard_msgs (whitespace := lax) in
#print axioms Verif.Mapped.Vector.remove_throw_stable_partial

/-- info: 'Verif.Mapped.Vector.remove_throw_unstable_partial' depends on axioms: [propext, Classical.choice, Quot.sound] -/
#guard_msgs (whitespace := lax) in
#print axioms Verif.Mapped.Vector.remove_throw_unstable_partial

/-- info: 'Verif.Mapped.Vector.remove_throw_violation' depends on axioms: [propext, Classical.choice, Quot.sound] -/
#guard_msgs (whitespace := lax) in
#print axioms Verif.Mapped.Vector.remove_throw_violation

/-- info: 'Verif.Mapped.Dual.remove_throw_stable_partial' depends on axioms: [propext, Classical.choice, Quot.sound] -/
#guard_msgs (whitespace := lax) in
#print axioms Verif.Mapped.Dual.remove_throw_stable_partial

/-- info: 'Verif.Mapped.Dual.remove_throw_unstable_partial' depends on axioms: [propext, Classical.choice, Quot.sound] -/
#guard_msgs (whitespace := lax) in
#print axioms Verif.Mapped.Dual.remove_throw_unstable_partial

/-- info: 'Verif.Mapped.Dual.remove_throw_violation' depends on axioms: [propext, Classical.choice, Quot.sound] -/
#guard_msgs (whitespace := lax) in
#print axioms Verif.Mapped.Dual.remove_throw_violation

/-- info: 'Verif.Mapped.Pointer.failure_partial' depends on axioms: [propext, Classical.choice, Quot.sound] -/
#guard_msgs (whitespace := lax) in
#print axioms Verif.Mapped.Pointer.failure_partial

/-- info: 'Verif.Mapped.Pointer.after_failures_partial' depends on axioms: [propext, Classical.choice, Quot.sound] -/
#guard_msgs (whitespace := lax) in
#print axioms Verif.Mapped.Pointer.after_failures_partial

/-- info: 'Verif.Mapped.Pointer.failures_no_leak' depends on axioms: [propext, Classical.choice, Quot.sound] -/
#guard_msgs (whitespace := lax) in
#print axioms Verif.Mapped.Pointer.failures_no_leak

/-- info: 'Verif.Mapped.Pointer.no_effect_partial' depends on axioms: [propext] -/
#guard_msgs (whitespace := lax) in
#print axioms Verif.Mapped.Pointer.no_effect_partial

/-- info: 'Verif.Mapped.Pointer.no_effect_client_partial' depends on axioms: [propext, Classical.choice, Quot.sound] -/
#guard_msgs (whitespace := lax) in
#print axioms Verif.Mapped.Pointer.no_effect_client_partial

/-- info: 'Verif.Mapped.Pointer.pointer_kept' depends on axioms: [propext] -/
#guard_msgs (whitespace := lax) in
#print axioms Verif.Mapped.Pointer.pointer_kept

/-- info: 'Verif.Mapped.Pointer.map_throw_violation' depends on axioms: [propext, Classical.choice, Quot.sound] -/
#guard_msgs (whitespace := lax) in
#print axioms Verif.Mapped.Pointer.map_throw_violation

/-- info: 'Verif.Mapped.DualPtr.failure_partial' depends on axioms: [propext, Classical.choice, Quot.sound] -/
#guard_msgs (whitespace := lax) in
#print axioms Verif.Mapped.DualPtr.failure_partial

/-- info: 'Verif.Mapped.DualPtr.after_failures_partial' depends on axioms: [propext, Classical.choice, Quot.sound] -/
#guard_msgs (whitespace := lax) in
#print axioms Verif.Mapped.DualPtr.after_failures_partial

/-- info: 'Verif.Mapped.DualPtr.failures_no_leak' depends on axioms: [propext, Classical.choice, Quot.sound] -/
#guard_msgs (whitespace := lax) in
#print axioms Verif.Mapped.DualPtr.failures_no_leak

/-- info: 'Verif.Mapped.DualPtr.no_effect_partial' depends on axioms: [propext] -/
#guard_msgs (whitespace := lax) in
#print axioms Verif.Mapped.DualPtr.no_effect_partial

/-- info: 'Verif.Mapped.DualPtr.no_effect_client_partial' depends on axioms: [propext, Classical.choice, Quot.sound] -/
#guard_msgs (whitespace := lax) in
#print axioms Verif.Mapped.DualPtr.no_effect_client_partial

/-- info: 'Verif.Mapped.DualPtr.pointer_kept' depends on axioms: [propext] -/
#guard_msgs (whitespace := lax) in
#print axioms Verif.Mapped.DualPtr.pointer_kept

/-- info: 'Verif.Mapped.DualPtr.map1_throw_violation' depends on axioms: [propext, Classical.choice, Quot.sound] -/
#guard_msgs (whitespace := lax) in
#print axioms Verif.Mapped.DualPtr.map1_throw_violation

/-- info: 'Verif.Mapped.DualPtr.map2_throw_violation' depends on axioms: [propext, Classical.choice, Quot.sound] -/
#guard_msgs (whitespace := lax) in
#print axioms Verif.Mapped.DualPtr.map2_throw_violation

/-- info: 'Verif.Mapped.Pointer.remove_throw_partial' depends on axioms: [propext, Classical.choice, Quot.sound] -/
#guard_msgs (whitespace := lax) in
#print axioms Verif.Mapped.Pointer.remove_throw_partial

/-- info: 'Verif.Mapped.Pointer.remove_throw_violation' depends on axioms: [propext, Classical.choice, Quot.sound] -/
#guard_msgs (whitespace := lax) in
#print axioms Verif.Mapped.Pointer.remove_throw_violation

/-- info: 'Verif.Mapped.DualPtr.remove_throw_partial' depends on axioms: [propext, Classical.choice, Quot.sound] -/
#guard_msgs (whitespace := lax) in
#print axioms Verif.Mapped.DualPtr.remove_throw_partial

/-- info: 'Verif.Mapped.DualPtr.remove_throw_violation' depends on axioms: [propext, Classical.choice, Quot.sound] -/
#guard_msgs (whitespace := lax) in
#print axioms Verif.Mapped.DualPtr.remove_throw_violation

/-- info: 'Verif.Mapped.DualPtr.remove_key_throw_violation' depends on axioms: [propext, Classical.choice, Quot.sound] -/
#guard_msgs (whitespace := lax) in
#print axioms Verif.Mapped.DualPtr.remove_key_throw_violation

/-- info: 'Verif.Mapped.Str.no_effect_partial' depends on axioms: [propext] -/
#guard_msgs (whitespace := lax) in
#print axioms Verif.Mapped.Str.no_effect_partial

/-- info: 'Verif.Mapped.Str.no_effect_runs_partial' depends on axioms: [propext, Classical.choice, Quot.sound] -/
#guard_msgs (whitespace := lax) in
#print axioms Verif.Mapped.Str.no_effect_runs_partial

/-- info: 'Verif.Mapped.Str.term_throw_violation' depends on axioms: [propext, Classical.choice, Quot.sound] -/
#guard_msgs (whitespace := lax) in
#print axioms Verif.Mapped.Str.term_throw_violation

/-- info: 'Verif.Mapped.Str.name_throw_violation' depends on axioms: [propext, Classical.choice, Quot.sound] -/
#guard_msgs (whitespace := lax) in
#print axioms Verif.Mapped.Str.name_throw_violation

/-- info: 'Verif.Mapped.Str.element_throw_violation' depends on axioms: [propext, Classical.choice, Quot.sound] -/
#guard_msgs (whitespace := lax) in
#print axioms Verif.Mapped.Str.element_throw_violation

/-- info: 'Verif.Mapped.Str.failure_unstable_partial' depends on axioms: [propext, Classical.choice, Quot.sound] -/
#guard_msgs (whitespace := lax) in
#print axioms Verif.Mapped.Str.failure_unstable_partial

/-- info: 'Verif.Mapped.Str.failure_stable_partial' depends on axioms: [propext, Classical.choice, Quot.sound] -/
#guard_msgs (whitespace := lax) in
#print axioms Verif.Mapped.Str.failure_stable_partial

/-- info: 'Verif.Mapped.Str.after_failures_unstable_partial' depends on axioms: [propext, Classical.choice, Quot.sound] -/
#guard_msgs (whitespace := lax) in
#print axioms Verif.Mapped.Str.after_failures_unstable_partial

/-- info: 'Verif.Mapped.Str.after_failures_stable_partial' depends on axioms: [propext, Classical.choice, Quot.sound] -/
#guard_msgs (whitespace := lax) in
#print axioms Verif.Mapped.Str.after_failures_stable_partial

/-- info: 'Verif.Mapped.Str.after_failures_keys_own' depends on axioms: [propext, Classical.choice, Quot.sound] -/
#guard_msgs (whitespace := lax) in
#print axioms Verif.Mapped.Str.after_failures_keys_own

/-- info: 'Verif.Mapped.Str.after_failures_destroy_partial' depends on axioms: [propext, Classical.choice, Quot.sound] -/
#guard_msgs (whitespace := lax) in
#print axioms Verif.Mapped.Str.after_failures_destroy_partial

/-- info: 'Verif.Mapped.Str.after_failures_destroy_elements' depends on axioms: [propext, Classical.choice, Quot.sound] -/
#guard_msgs (whitespace := lax) in
#print axioms Verif.Mapped.Str.after_failures_destroy_elements

/-- info: 'Verif.Mapped.Str.first_name_violation' depends on axioms: [propext, Classical.choice, Quot.sound] -/
#guard_msgs (whitespace := lax) in
#print axioms Verif.Mapped.Str.first_name_violation

/-- info: 'Verif.Mapped.DualStr.no_effect_partial' depends on axioms: [propext] -/
#guard_msgs (whitespace := lax) in
#print axioms Verif.Mapped.DualStr.no_effect_partial

/-- info: 'Verif.Mapped.DualStr.no_effect_runs_partial' depends on axioms: [propext, Classical.choice, Quot.sound] -/
#guard_msgs (whitespace := lax) in
#print axioms Verif.Mapped.DualStr.no_effect_runs_partial

/-- info: 'Verif.Mapped.DualStr.term_throw_violation' depends on axioms: [propext, Classical.choice, Quot.sound] -/
#guard_msgs (whitespace := lax) in
#print axioms Verif.Mapped.DualStr.term_throw_violation

/-- info: 'Verif.Mapped.DualStr.map2_throw_violation' depends on axioms: [propext, Classical.choice, Quot.sound] -/
#guard_msgs (whitespace := lax) in
#print axioms Verif.Mapped.DualStr.map2_throw_violation

/-- info: 'Verif.Mapped.DualStr.assign_throw_violation' depends on axioms: [propext, Classical.choice, Quot.sound] -/
#guard_msgs (whitespace := lax) in
#print axioms Verif.Mapped.DualStr.assign_throw_violation

/-- info: 'Verif.Mapped.DualStr.failure_unstable_partial' depends on axioms: [propext, Classical.choice, Quot.sound] -/
#guard_msgs (whitespace := lax) in
#print axioms Verif.Mapped.DualStr.failure_unstable_partial

/-- info: 'Verif.Mapped.DualStr.failure_stable_partial' depends on axioms: [propext, Classical.choice, Quot.sound] -/
#guard_msgs (whitespace := lax) in
#print axioms Verif.Mapped.DualStr.failure_stable_partial

/-- info: 'Verif.Mapped.DualStr.after_failures_unstable_partial' depends on axioms: [propext, Classical.choice, Quot.sound] -/
#guard_msgs (whitespace := lax) in
#print axioms Verif.Mapped.DualStr.after_failures_unstable_partial

/-- info: 'Verif.Mapped.DualStr.after_failures_stable_partial' depends on axioms: [propext, Classical.choice, Quot.sound] -/
#guard_msgs (whitespace := lax) in
#print axioms Verif.Mapped.DualStr.after_failures_stable_partial

/-- info: 'Verif.Mapped.DualStr.after_failures_keys_own' depends on axioms: [propext, Classical.choice, Quot.sound] -/
#guard_msgs (whitespace := lax) in
#print axioms Verif.Mapped.DualStr.after_failures_keys_own

/-- info: 'Verif.Mapped.DualStr.after_failures_destroy_partial' depends on axioms: [propext, Classical.choice, Quot.sound] -/
#guard_msgs (whitespace := lax) in
#print axioms Verif.Mapped.DualStr.after_failures_destroy_partial

/-- info: 'Verif.Mapped.DualStr.after_failures_destroy_elements' depends on axioms: [propext, Classical.choice, Quot.sound] -/
#guard_msgs (whitespace := lax) in
#print axioms Verif.Mapped.DualStr.after_failures_destroy_elements

/-- info: 'Verif.Mapped.DualStr.name_throw_violation' depends on axioms: [propext, Classical.choice, Quot.sound] -/
#guard_msgs (whitespace := lax) in
#print axioms Verif.Mapped.DualStr.name_throw_violation

/-- info: 'Verif.Mapped.DualStr.first_name_violation' depends on axioms: [propext, Classical.choice, Quot.sound] -/
#guard_msgs (whitespace := lax) in
#print axioms Verif.Mapped.DualStr.first_name_violation

/-- info: 'Verif.Mapped.DualStr.element_throw_violation' depends on axioms: [propext, Classical.choice, Quot.sound] -/
#guard_msgs (whitespace := lax) in
#print axioms Verif.Mapped.DualStr.element_throw_violation

/-- info: 'Verif.Mapped.DualStr.remove_throw_partial' depends on axioms: [propext, Classical.choice, Quot.sound] -/
#guard_msgs (whitespace := lax) in
#print axioms Verif.Mapped.DualStr.remove_throw_partial

/-- info: 'Verif.Mapped.DualStr.remove_copy_violation' depends on axioms: [propext, Classical.choice, Quot.sound] -/
#guard_msgs (whitespace := lax) in
#print axioms Verif.Mapped.DualStr.remove_copy_violation

/-- info: 'Verif.Mapped.DualStr.remove_memory_violation' depends on axioms: [propext, Classical.choice, Quot.sound] -/
#guard_msgs (whitespace := lax) in
#print axioms Verif.Mapped.DualStr.remove_memory_violation

/-- info: 'Verif.Mapped.DualStr.remove_last_violation' depends on axioms: [propext, Classical.choice, Quot.sound] -/
#guard_msgs (whitespace := lax) in
#print axioms Verif.Mapped.DualStr.remove_last_violation

/-- info: 'Verif.AirLock.throw_no_effect_partial' depends on axioms: [propext, Classical.choice, Quot.sound] -/
#guard_msgs (whitespace := lax) in
#print axioms Verif.AirLock.throw_no_effect_partial

/-- info: 'Verif.AirLock.throw_result' depends on axioms: [propext] -/
#guard_msgs (whitespace := lax) in
#print axioms Verif.AirLock.throw_result

/-- info: 'Verif.AirLock.throw_releases_lock' depends on axioms: [propext, Classical.choice, Quot.sound] -/
#guard_msgs (whitespace := lax) in
#print axioms Verif.AirLock.throw_releases_lock

/-- info: 'Verif.AirLock.torn_violation' depends on axioms: [propext, Quot.sound] -/
#guard_msgs (whitespace := lax) in
#print axioms Verif.AirLock.torn_violation

/-- info: 'Verif.AirLock.throw_wakeup_partial' depends on axioms: [propext, Classical.choice, Quot.sound] -/
#guard_msgs (whitespace := lax) in
#print axioms Verif.AirLock.throw_wakeup_partial

/-- info: 'Verif.AirLock.throw_wakeup_quiescent_partial' depends on axioms: [propext, Classical.choice, Quot.sound] -/
#guard_msgs (whitespace := lax) in
#print axioms Verif.AirLock.throw_wakeup_quiescent_partial

/-- info: 'Verif.AirLock.throw_lost_wakeup_violation' depends on axioms: [propext] -/
#guard_msgs (whitespace := lax) in
#print axioms Verif.AirLock.throw_lost_wakeup_violation

/-- info: 'Verif.AirLock.throw_lost_wakeup_stays' depends on axioms: [propext, Classical.choice, Quot.sound] -/
#guard_msgs (whitespace := lax) in
#print axioms Verif.AirLock.throw_lost_wakeup_stays

/-- info: 'Verif.BlockingQueue.pop_throw_no_effect_partial' depends on axioms: [propext, Classical.choice, Quot.sound] -/
#guard_msgs (whitespace := lax) in
#print axioms Verif.BlockingQueue.pop_throw_no_effect_partial

/-- info: 'Verif.BlockingQueue.pop_throw_result' depends on axioms: [propext, Quot.sound] -/
#guard_msgs (whitespace := lax) in
#print axioms Verif.BlockingQueue.pop_throw_result

/-- info: 'Verif.BlockingQueue.throw_conservation' depends on axioms: [propext, Classical.choice, Quot.sound] -/
#guard_msgs (whitespace := lax) in
#print axioms Verif.BlockingQueue.throw_conservation

/-- info: 'Verif.BlockingQueue.pop_throw_violation' depends on axioms: [propext, Classical.choice, Quot.sound] -/
#guard_msgs (whitespace := lax) in
#print axioms Verif.BlockingQueue.pop_throw_violation

/-- info: 'Verif.BlockingPriorityQueue.pop_throw_no_effect_partial' depends on axioms: [propext, Classical.choice, Quot.sound] -/
#guard_msgs (whitespace := lax) in
#print axioms Verif.BlockingPriorityQueue.pop_throw_no_effect_partial

/-- info: 'Verif.BlockingPriorityQueue.pop_throw_result' depends on axioms: [propext, Quot.sound] -/
#guard_msgs (whitespace := lax) in
#print axioms Verif.BlockingPriorityQueue.pop_throw_result

/-- info: 'Verif.BlockingPriorityQueue.throw_conservation' depends on axioms: [propext, Classical.choice, Quot.sound] -/
#guard_msgs (whitespace := lax) in
#print axioms Verif.BlockingPriorityQueue.throw_conservation

/-- info: 'Verif.BlockingPriorityQueue.pop_throw_violation' depends on axioms: [propext, Classical.choice, Quot.sound] -/
#guard_msgs (whitespace := lax) in
#print axioms Verif.BlockingPriorityQueue.pop_throw_violation

/-- info: 'Verif.WorkQueue.Full.race_free_partial' depends on axioms: [propext, Classical.choice, Quot.sound] -/
#guard_msgs (whitespace := lax) in
#print axioms Verif.WorkQueue.Full.race_free_partial

/-- info: 'Verif.WorkQueue.Full.only_polls_race' depends on axioms: [propext, Classical.choice, Quot.sound] -/
#guard_msgs (whitespace := lax) in
#print axioms Verif.WorkQueue.Full.only_polls_race

/-- info: 'Verif.WorkQueue.race_free_partial' depends on axioms: [propext, Classical.choice, Quot.sound] -/
#guard_msgs (whitespace := lax) in
#print axioms Verif.WorkQueue.race_free_partial

/-- info: 'Verif.WorkQueue.only_polls_race' depends on axioms: [propext, Classical.choice, Quot.sound] -/
#guard_msgs (whitespace := lax) in
#print axioms Verif.WorkQueue.only_polls_race

/-- info: 'Verif.WorkQueue.flag_frame' depends on axioms: [propext, Quot.sound] -/
#guard_msgs (whitespace := lax) in
#print axioms Verif.WorkQueue.flag_frame

/-- info: 'Verif.WorkQueue.poll_race' depends on axioms: [propext] -/
#guard_msgs (whitespace := lax) in
#print axioms Verif.WorkQueue.poll_race

/-- info: 'Verif.WorkQueue.twice_race' depends on axioms: [propext] -/
#guard_msgs (whitespace := lax) in
#print axioms Verif.WorkQueue.twice_race

/-- info: 'Verif.WorkQueue.close_race' depends on axioms: [propext] -/
#guard_msgs (whitespace := lax) in
#print axioms Verif.WorkQueue.close_race

/-- info: 'Verif.WorkQueue.Full.finished_answer_partial' depends on axioms: [propext, Classical.choice, Quot.sound] -/
#guard_msgs (whitespace := lax) in
#print axioms Verif.WorkQueue.Full.finished_answer_partial

/-- info: 'Verif.WorkQueue.finished_answer_partial' depends on axioms: [propext, Classical.choice, Quot.sound] -/
#guard_msgs (whitespace := lax) in
#print axioms Verif.WorkQueue.finished_answer_partial

/-- info: 'Verif.WorkQueue.finished_stays' depends on axioms: [propext, Quot.sound] -/
#guard_msgs (whitespace := lax) in
#print axioms Verif.WorkQueue.finished_stays

/-- info: 'Verif.WorkQueue.finished_violation' depends on axioms: [propext] -/
#guard_msgs (whitespace := lax) in
#print axioms Verif.WorkQueue.finished_violation

/-- info: 'Verif.Block.Vector.arrays_no_double_delete' depends on axioms: [propext, Classical.choice, Quot.sound] -/
#guard_msgs (whitespace := lax) in
#print axioms Verif.Block.Vector.arrays_no_double_delete

/-- info: 'Verif.Block.Vector.arrays_owned' depends on axioms: [propext, Quot.sound] -/
#guard_msgs (whitespace := lax) in
#print axioms Verif.Block.Vector.arrays_owned

/-- info: 'Verif.Block.Vector.arrays_no_leak' depends on axioms: [propext, Classical.choice, Quot.sound] -/
#guard_msgs (whitespace := lax) in
#print axioms Verif.Block.Vector.arrays_no_leak

/-- info: 'Verif.Block.Vector.arrays_faithful' depends on axioms: [propext, Quot.sound] -/
#guard_msgs (whitespace := lax) in
#print axioms Verif.Block.Vector.arrays_faithful

/-- info: 'Verif.Block.Vector.careful_arrays' depends on axioms: [propext, Classical.choice, Quot.sound] -/
#guard_msgs (whitespace := lax) in
#print axioms Verif.Block.Vector.careful_arrays

/-- info: 'Verif.Block.Deque.arrays_no_double_delete' depends on axioms: [propext, Classical.choice, Quot.sound] -/
#guard_msgs (whitespace := lax) in
#print axioms Verif.Block.Deque.arrays_no_double_delete

/-- info: 'Verif.Block.Deque.arrays_owned' depends on axioms: [propext, Quot.sound] -/
#guard_msgs (whitespace := lax) in
#print axioms Verif.Block.Deque.arrays_owned

/-- info: 'Verif.Block.Deque.arrays_no_leak' depends on axioms: [propext, Classical.choice, Quot.sound] -/
#guard_msgs (whitespace := lax) in
#print axioms Verif.Block.Deque.arrays_no_leak

/-- info: 'Verif.Block.Deque.arrays_faithful' depends on axioms: [propext, Quot.sound] -/
#guard_msgs (whitespace := lax) in
#print axioms Verif.Block.Deque.arrays_faithful

/-- info: 'Verif.Block.Deque.careful_arrays' depends on axioms: [propext, Classical.choice, Quot.sound] -/
#guard_msgs (whitespace := lax) in
#print axioms Verif.Block.Deque.careful_arrays

/-- info: 'Verif.BlockingQueue.waits' depends on axioms: [propext, Quot.sound] -/
#guard_msgs (whitespace := lax) in
#print axioms Verif.BlockingQueue.waits

/-- info: 'Verif.BlockingQueue.timeout_elapsed' depends on axioms: [propext, Quot.sound] -/
#guard_msgs (whitespace := lax) in
#print axioms Verif.BlockingQueue.timeout_elapsed

/-- info: 'Verif.BlockingQueue.function_unlocked' depends on axioms: [propext, Classical.choice, Quot.sound] -/
#guard_msgs (whitespace := lax) in
#print axioms Verif.BlockingQueue.function_unlocked

/-- info: 'Verif.BlockingQueue.function_fills_partial' depends on axioms: [propext, Classical.choice, Quot.sound] -/
#guard_msgs (whitespace := lax) in
#print axioms Verif.BlockingQueue.function_fills_partial

/-- info: 'Verif.BlockingQueue.function_fills_violation' depends on axioms: [propext, Quot.sound] -/
#guard_msgs (whitespace := lax) in
#print axioms Verif.BlockingQueue.function_fills_violation

/-- info: 'Verif.BlockingPriorityQueue.waits' depends on axioms: [propext, Quot.sound] -/
#guard_msgs (whitespace := lax) in
#print axioms Verif.BlockingPriorityQueue.waits

/-- info: 'Verif.BlockingPriorityQueue.timeout_elapsed' depends on axioms: [propext, Quot.sound] -/
#guard_msgs (whitespace := lax) in
#print axioms Verif.BlockingPriorityQueue.timeout_elapsed

/-- info: 'Verif.BlockingPriorityQueue.function_unlocked' depends on axioms: [propext, Classical.choice, Quot.sound] -/
#guard_msgs (whitespace := lax) in
#print axioms Verif.BlockingPriorityQueue.function_unlocked

/-- info: 'Verif.BlockingPriorityQueue.function_fills_partial' depends on axioms: [propext, Classical.choice, Quot.sound] -/
#guard_msgs (whitespace := lax) in
#print axioms Verif.BlockingPriorityQueue.function_fills_partial

/-- info: 'Verif.BlockingPriorityQueue.function_fills_violation' depends on axioms: [propext, Quot.sound] -/
#guard_msgs (whitespace := lax) in
#print axioms Verif.BlockingPriorityQueue.function_fills_violation

/-- info: 'Verif.StackBuffer.memory_session_partial' depends on axioms: [propext, Classical.choice, Quot.sound] -/
#guard_msgs (whitespace := lax) in
#print axioms Verif.StackBuffer.memory_session_partial

/-- info: 'Verif.StackBuffer.memory_owned' depends on axioms: [propext, Classical.choice, Quot.sound] -/
#guard_msgs (whitespace := lax) in
#print axioms Verif.StackBuffer.memory_owned

/-- info: 'Verif.StackBuffer.no_leak_partial' depends on axioms: [propext, Classical.choice, Quot.sound] -/
#guard_msgs (whitespace := lax) in
#print axioms Verif.StackBuffer.no_leak_partial

/-- info: 'Verif.StackBuffer.resize_throws_unchanged' depends on axioms: [propext, Quot.sound] -/
#guard_msgs (whitespace := lax) in
#print axioms Verif.StackBuffer.resize_throws_unchanged

/-- info: 'Verif.StackBuffer.copy_assign_fails' depends on axioms: [propext, Classical.choice, Quot.sound] -/
#guard_msgs (whitespace := lax) in
#print axioms Verif.StackBuffer.copy_assign_fails

/-- info: 'Verif.StackBuffer.copy_assign_violation' depends on axioms: [propext] -/
#guard_msgs (whitespace := lax) in
#print axioms Verif.StackBuffer.copy_assign_violation

/-- info: 'Verif.StackBuffer.leak_violation' depends on axioms: [propext] -/
#guard_msgs (whitespace := lax) in
#print axioms Verif.StackBuffer.leak_violation

/-- info: 'Verif.StackBuffer.aligned_partial' depends on axioms: [propext, Classical.choice, Quot.sound] -/
#guard_msgs (whitespace := lax) in
#print axioms Verif.StackBuffer.aligned_partial

/-- info: 'Verif.StackBuffer.misaligned_push' depends on axioms: [propext, Classical.choice, Quot.sound] -/
#guard_msgs (whitespace := lax) in
#print axioms Verif.StackBuffer.misaligned_push

/-- info: 'Verif.StackBuffer.misaligned_iff' depends on axioms: [propext, Classical.choice, Quot.sound] -/
#guard_msgs (whitespace := lax) in
#print axioms Verif.StackBuffer.misaligned_iff

/-- info: 'Verif.StackBuffer.owner_aligned_iff' depends on axioms: [propext, Classical.choice, Quot.sound] -/
#guard_msgs (whitespace := lax) in
#print axioms Verif.StackBuffer.owner_aligned_iff

/-- info: 'Verif.StackBuffer.misaligned_violation' depends on axioms: [propext] -/
#guard_msgs (whitespace := lax) in
#print axioms Verif.StackBuffer.misaligned_violation

/-- info: 'Verif.CircularBuffer.memory_session_partial' depends on axioms: [propext, Classical.choice, Quot.sound] -/
#guard_msgs (whitespace := lax) in
#print axioms Verif.CircularBuffer.memory_session_partial

/-- info: 'Verif.CircularBuffer.memory_owned' depends on axioms: [propext, Classical.choice, Quot.sound] -/
#guard_msgs (whitespace := lax) in
#print axioms Verif.CircularBuffer.memory_owned

/-- info: 'Verif.CircularBuffer.no_leak_partial' depends on axioms: [propext, Classical.choice, Quot.sound] -/
#guard_msgs (whitespace := lax) in
#print axioms Verif.CircularBuffer.no_leak_partial

/-- info: 'Verif.CircularBuffer.resize_throws_unchanged' depends on axioms: [propext, Quot.sound] -/
#guard_msgs (whitespace := lax) in
#print axioms Verif.CircularBuffer.resize_throws_unchanged

/-- info: 'Verif.CircularBuffer.copy_assign_fails' depends on axioms: [propext, Classical.choice, Quot.sound] -/
#guard_msgs (whitespace := lax) in
#print axioms Verif.CircularBuffer.copy_assign_fails

/-- info: 'Verif.CircularBuffer.copy_assign_violation' depends on axioms: [propext] -/
#guard_msgs (whitespace := lax) in
#print axioms Verif.CircularBuffer.copy_assign_violation

/-- info: 'Verif.CircularBuffer.leak_violation' depends on axioms: [propext] -/
#guard_msgs (whitespace := lax) in
#print axioms Verif.CircularBuffer.leak_violation

/-- info: 'Verif.CircularBuffer.copy_of_default_deletes_twice' depends on axioms: [propext] -/
#guard_msgs (whitespace := lax) in
#print axioms Verif.CircularBuffer.copy_of_default_deletes_twice

/-- info: 'Verif.CircularBuffer.margin_never_overfills' depends on axioms: [propext, Quot.sound] -/
#guard_msgs (whitespace := lax) in
#print axioms Verif.CircularBuffer.margin_never_overfills

/-- info: 'Verif.WorkQueue.Throw.failures_refine' depends on axioms: [propext, Quot.sound] -/
#guard_msgs (whitespace := lax) in
#print axioms Verif.WorkQueue.Throw.failures_refine

/-- info: 'Verif.WorkQueue.Throw.at_most_once' depends on axioms: [propext, Classical.choice, Quot.sound] -/
#guard_msgs (whitespace := lax) in
#print axioms Verif.WorkQueue.Throw.at_most_once

/-- info: 'Verif.WorkQueue.Throw.exactly_once' depends on axioms: [propext, Classical.choice, Quot.sound] -/
#guard_msgs (whitespace := lax) in
#print axioms Verif.WorkQueue.Throw.exactly_once

/-- info: 'Verif.WorkQueue.Throw.failed_halt' depends on axioms: [propext, Quot.sound] -/
#guard_msgs (whitespace := lax) in
#print axioms Verif.WorkQueue.Throw.failed_halt

/-- info: 'Verif.WorkQueue.Throw.failed_bounded' depends on axioms: [propext, Classical.choice, Quot.sound] -/
#guard_msgs (whitespace := lax) in
#print axioms Verif.WorkQueue.Throw.failed_bounded

/-- info: 'Verif.WorkQueue.Throw.failed_exits' depends on axioms: [propext, Classical.choice, Quot.sound] -/
#guard_msgs (whitespace := lax) in
#print axioms Verif.WorkQueue.Throw.failed_exits

/-- info: 'Verif.WorkQueue.Throw.second_close_succeeds_partial' depends on axioms: [propext, Classical.choice, Quot.sound] -/
#guard_msgs (whitespace := lax) in
#print axioms Verif.WorkQueue.Throw.second_close_succeeds_partial

/-- info: 'Verif.WorkQueue.Throw.destroy_after_failure' depends on axioms: [propext, Quot.sound] -/
#guard_msgs (whitespace := lax) in
#print axioms Verif.WorkQueue.Throw.destroy_after_failure

/-- info: 'Verif.WorkQueue.Throw.second_close_waits' depends on axioms: [propext, Classical.choice, Quot.sound] -/
#guard_msgs (whitespace := lax) in
#print axioms Verif.WorkQueue.Throw.second_close_waits

/-- info: 'Verif.WorkQueue.Throw.second_close_violation' depends on axioms: [propext, Classical.choice, Quot.sound] -/
#guard_msgs (whitespace := lax) in
#print axioms Verif.WorkQueue.Throw.second_close_violation

/-- info: 'Verif.WorkQueue.Throw.destroy_violation' depends on axioms: [propext] -/
#guard_msgs (whitespace := lax) in
#print axioms Verif.WorkQueue.Throw.destroy_violation

/-- info: 'Verif.WorkQueue.Throw.destroy_oom_violation' depends on axioms: [propext] -/
#guard_msgs (whitespace := lax) in
#print axioms Verif.WorkQueue.Throw.destroy_oom_violation

/-- info: 'Verif.WorkQueue.Throw.construct_ok' depends on axioms: [propext, Quot.sound] -/
#guard_msgs (whitespace := lax) in
#print axioms Verif.WorkQueue.Throw.construct_ok

/-- info: 'Verif.WorkQueue.Throw.construct_throws_partial' depends on axioms: [propext, Quot.sound] -/
#guard_msgs (whitespace := lax) in
#print axioms Verif.WorkQueue.Throw.construct_throws_partial

/-- info: 'Verif.WorkQueue.Throw.construct_terminates' depends on axioms: [propext, Quot.sound] -/
#guard_msgs (whitespace := lax) in
#print axioms Verif.WorkQueue.Throw.construct_terminates

/-- info: 'Verif.WorkQueue.Throw.construct_violation' does not depend on any axioms -/
#guard_msgs (whitespace := lax) in
#print axioms Verif.WorkQueue.Throw.construct_violation

/-- info: 'Verif.WorkQueue.low_share_partial' depends on axioms: [propext, Classical.choice, Quot.sound] -/
#guard_msgs (whitespace := lax) in
#print axioms Verif.WorkQueue.low_share_partial

/-- info: 'Verif.WorkQueue.low_share_idle_partial' depends on axioms: [propext, Classical.choice, Quot.sound] -/
#guard_msgs (whitespace := lax) in
#print axioms Verif.WorkQueue.low_share_idle_partial

/-- info: 'Verif.WorkQueue.low_not_starved_partial' depends on axioms: [propext, Classical.choice, Quot.sound] -/
#guard_msgs (whitespace := lax) in
#print axioms Verif.WorkQueue.low_not_starved_partial

/-- info: 'Verif.WorkQueue.medium_share' depends on axioms: [propext, Classical.choice, Quot.sound] -/
#guard_msgs (whitespace := lax) in
#print axioms Verif.WorkQueue.medium_share

/-- info: 'Verif.WorkQueue.worker_progress' depends on axioms: [propext, Classical.choice, Quot.sound] -/
#guard_msgs (whitespace := lax) in
#print axioms Verif.WorkQueue.worker_progress

/-- info: 'Verif.WorkQueue.high_waits' depends on axioms: [propext, Classical.choice, Quot.sound] -/
#guard_msgs (whitespace := lax) in
#print axioms Verif.WorkQueue.high_waits

/-- info: 'Verif.WorkQueue.medium_waits' depends on axioms: [propext, Classical.choice, Quot.sound] -/
#guard_msgs (whitespace := lax) in
#print axioms Verif.WorkQueue.medium_waits

/-- info: 'Verif.WorkQueue.low_waits_partial' depends on axioms: [propext, Classical.choice, Quot.sound] -/
#guard_msgs (whitespace := lax) in
#print axioms Verif.WorkQueue.low_waits_partial

/-- info: 'Verif.WorkQueue.high_handled' depends on axioms: [propext, Classical.choice, Quot.sound] -/
#guard_msgs (whitespace := lax) in
#print axioms Verif.WorkQueue.high_handled

/-- info: 'Verif.WorkQueue.medium_handled' depends on axioms: [propext, Classical.choice, Quot.sound] -/
#guard_msgs (whitespace := lax) in
#print axioms Verif.WorkQueue.medium_handled

/-- info: 'Verif.WorkQueue.low_handled' depends on axioms: [propext, Classical.choice, Quot.sound] -/
#guard_msgs (whitespace := lax) in
#print axioms Verif.WorkQueue.low_handled

/-- info: 'Verif.WorkQueue.all_executed' depends on axioms: [propext, Classical.choice, Quot.sound] -/
#guard_msgs (whitespace := lax) in
#print axioms Verif.WorkQueue.all_executed

/-- info: 'Verif.WorkQueue.extends_fair' depends on axioms: [propext, Classical.choice, Quot.sound] -/
#guard_msgs (whitespace := lax) in
#print axioms Verif.WorkQueue.extends_fair

/-- info: 'Verif.SimpleQueue.every_call_returns' depends on axioms: [propext, Classical.choice, Quot.sound] -/
#guard_msgs (whitespace := lax) in
#print axioms Verif.SimpleQueue.every_call_returns

/-- info: 'Verif.Blocking.plain_calls_return' depends on axioms: [propext, Classical.choice, Quot.sound] -/
#guard_msgs (whitespace := lax) in
#print axioms Verif.Blocking.plain_calls_return

/-- info: 'Verif.Blocking.pop_returns_or_waits' depends on axioms: [propext, Classical.choice, Quot.sound] -/
#guard_msgs (whitespace := lax) in
#print axioms Verif.Blocking.pop_returns_or_waits

/-- info: 'Verif.Blocking.pop_returns_after_timeout' depends on axioms: [propext, Classical.choice, Quot.sound] -/
#guard_msgs (whitespace := lax) in
#print axioms Verif.Blocking.pop_returns_after_timeout

/-- info: 'Verif.Blocking.extends_fair' depends on axioms: [propext, Classical.choice, Quot.sound] -/
#guard_msgs (whitespace := lax) in
#print axioms Verif.Blocking.extends_fair

/-- info: 'Verif.Blocking.single_consumer_returns' depends on axioms: [propext, Classical.choice, Quot.sound] -/
#guard_msgs (whitespace := lax) in
#print axioms Verif.Blocking.single_consumer_returns

/-- info: 'Verif.Blocking.single_consumer_returns_after_insertion' depends on axioms: [propext, Classical.choice, Quot.sound] -/
#guard_msgs (whitespace := lax) in
#print axioms Verif.Blocking.single_consumer_returns_after_insertion

/-- info: 'Verif.Blocking.waiting_pop_returns_or_empty' depends on axioms: [propext, Classical.choice, Quot.sound] -/
#guard_msgs (whitespace := lax) in
#print axioms Verif.Blocking.waiting_pop_returns_or_empty

/-- info: 'Verif.AirLock.plain_calls_return' depends on axioms: [propext, Classical.choice, Quot.sound] -/
#guard_msgs (whitespace := lax) in
#print axioms Verif.AirLock.plain_calls_return

/-- info: 'Verif.AirLock.load_returns_or_waits' depends on axioms: [propext, Classical.choice, Quot.sound] -/
#guard_msgs (whitespace := lax) in
#print axioms Verif.AirLock.load_returns_or_waits

/-- info: 'Verif.AirLock.unload_empties' depends on axioms: [propext, Classical.choice, Quot.sound] -/
#guard_msgs (whitespace := lax) in
#print axioms Verif.AirLock.unload_empties

/-- info: 'Verif.AirLock.load_returns_or_overtaken_partial' depends on axioms: [propext, Classical.choice, Quot.sound] -/
#guard_msgs (whitespace := lax) in
#print axioms Verif.AirLock.load_returns_or_overtaken_partial

/-- info: 'Verif.AirLock.load_returns_partial' depends on axioms: [propext, Classical.choice, Quot.sound] -/
#guard_msgs (whitespace := lax) in
#print axioms Verif.AirLock.load_returns_partial

/-- info: 'Verif.AirLock.load_starves_violation' depends on axioms: [propext, Classical.choice, Quot.sound] -/
#guard_msgs (whitespace := lax) in
#print axioms Verif.AirLock.load_starves_violation

/-- info: 'Verif.AirLock.weak_linearizable' depends on axioms: [propext, Classical.choice, Quot.sound] -/
#guard_msgs (whitespace := lax) in
#print axioms Verif.AirLock.weak_linearizable

/-- info: 'Verif.AirLock.happensBefore_order' depends on axioms: [propext, Classical.choice, Quot.sound] -/
#guard_msgs (whitespace := lax) in
#print axioms Verif.AirLock.happensBefore_order

/-- info: 'Verif.AirLock.runs_exchange' depends on axioms: [propext] -/
#guard_msgs (whitespace := lax) in
#print axioms Verif.AirLock.runs_exchange

/-- info: 'Verif.AirLock.weak_stale_violation' depends on axioms: [propext, Classical.choice, Quot.sound] -/
#guard_msgs (whitespace := lax) in
#print axioms Verif.AirLock.weak_stale_violation

/-- info: 'Verif.AirLock.weak_race_free' depends on axioms: [propext, Classical.choice, Quot.sound] -/
#guard_msgs (whitespace := lax) in
#print axioms Verif.AirLock.weak_race_free

/-- info: 'Verif.AirLock.weak_race_reported' depends on axioms: [propext, Classical.choice, Quot.sound] -/
#guard_msgs (whitespace := lax) in
#print axioms Verif.AirLock.weak_race_reported

/-- info: 'Verif.AirLock.weak_locked_reads' depends on axioms: [propext, Classical.choice, Quot.sound] -/
#guard_msgs (whitespace := lax) in
#print axioms Verif.AirLock.weak_locked_reads

/-- info: 'Verif.AirLock.weak_no_lost_wakeup' depends on axioms: [propext, Classical.choice, Quot.sound] -/
#guard_msgs (whitespace := lax) in
#print axioms Verif.AirLock.weak_no_lost_wakeup

/-- info: 'Verif.AirLock.weak_no_deadlock' depends on axioms: [propext, Classical.choice, Quot.sound] -/
#guard_msgs (whitespace := lax) in
#print axioms Verif.AirLock.weak_no_deadlock

/-- info: 'Verif.Mapped.SeveralStr.mapped_unstable_partial' depends on axioms: [propext, Classical.choice, Quot.sound] -/
#guard_msgs (whitespace := lax) in
#print axioms Verif.Mapped.SeveralStr.mapped_unstable_partial

/-- info: 'Verif.Mapped.SeveralStr.mapped_stable_partial' depends on axioms: [propext, Classical.choice, Quot.sound] -/
#guard_msgs (whitespace := lax) in
#print axioms Verif.Mapped.SeveralStr.mapped_stable_partial

/-- info: 'Verif.Mapped.SeveralStr.dual_unstable_partial' depends on axioms: [propext, Classical.choice, Quot.sound] -/
#guard_msgs (whitespace := lax) in
#print axioms Verif.Mapped.SeveralStr.dual_unstable_partial

/-- info: 'Verif.Mapped.SeveralStr.dual_stable_partial' depends on axioms: [propext, Classical.choice, Quot.sound] -/
#guard_msgs (whitespace := lax) in
#print axioms Verif.Mapped.SeveralStr.dual_stable_partial

/-- info: 'Verif.Mapped.SeveralStr.moves_unstable_partial' depends on axioms: [propext, Classical.choice, Quot.sound] -/
#guard_msgs (whitespace := lax) in
#print axioms Verif.Mapped.SeveralStr.moves_unstable_partial

/-- info: 'Verif.Mapped.SeveralStr.moves_stable_partial' depends on axioms: [propext, Classical.choice, Quot.sound] -/
#guard_msgs (whitespace := lax) in
#print axioms Verif.Mapped.SeveralStr.moves_stable_partial

/-- info: 'Verif.Mapped.SeveralStr.moves_dual_unstable_partial' depends on axioms: [propext, Classical.choice, Quot.sound] -/
#guard_msgs (whitespace := lax) in
#print axioms Verif.Mapped.SeveralStr.moves_dual_unstable_partial

/-- info: 'Verif.Mapped.SeveralStr.moves_dual_stable_partial' depends on axioms: [propext, Classical.choice, Quot.sound] -/
#guard_msgs (whitespace := lax) in
#print axioms Verif.Mapped.SeveralStr.moves_dual_stable_partial

/-- info: 'Verif.Mapped.SeveralStr.copy_outlives_violation' depends on axioms: [propext, Classical.choice, Quot.sound] -/
#guard_msgs (whitespace := lax) in
#print axioms Verif.Mapped.SeveralStr.copy_outlives_violation

/-- info: 'Verif.Mapped.SeveralStr.copy_outlives_stable_violation' depends on axioms: [propext, Classical.choice, Quot.sound] -/
#guard_msgs (whitespace := lax) in
#print axioms Verif.Mapped.SeveralStr.copy_outlives_stable_violation

/-- info: 'Verif.Mapped.SeveralStr.dual_copy_outlives_violation' depends on axioms: [propext] -/
#guard_msgs (whitespace := lax) in
#print axioms Verif.Mapped.SeveralStr.dual_copy_outlives_violation

/-- info: 'Verif.Mapped.SeveralStr.assign_over_original_violation' depends on axioms: [propext] -/
#guard_msgs (whitespace := lax) in
#print axioms Verif.Mapped.SeveralStr.assign_over_original_violation

/-- info: 'Verif.Mapped.SeveralStr.moveAssign_over_original_violation' depends on axioms: [propext] -/
#guard_msgs (whitespace := lax) in
#print axioms Verif.Mapped.SeveralStr.moveAssign_over_original_violation

/-- info: 'Verif.Mapped.SeveralStr.copyAssign_moved_violation' depends on axioms: [propext] -/
#guard_msgs (whitespace := lax) in
#print axioms Verif.Mapped.SeveralStr.copyAssign_moved_violation

/-- info: 'Verif.Mapped.SeveralStr.copy_full_violation' depends on axioms: [propext] -/
#guard_msgs (whitespace := lax) in
#print axioms Verif.Mapped.SeveralStr.copy_full_violation

/-- info: 'Verif.Mapped.Vector.exact_unstable' depends on axioms: [propext, Classical.choice, Quot.sound] -/
#guard_msgs (whitespace := lax) in
#print axioms Verif.Mapped.Vector.exact_unstable

/-- info: 'Verif.Mapped.Vector.exact_stable' depends on axioms: [propext, Classical.choice, Quot.sound] -/
#guard_msgs (whitespace := lax) in
#print axioms Verif.Mapped.Vector.exact_stable

/-- info: 'Verif.Mapped.Vector.second_term_finds_successor' depends on axioms: [propext, Classical.choice, Quot.sound] -/
#guard_msgs (whitespace := lax) in
#print axioms Verif.Mapped.Vector.second_term_finds_successor

/-- info: 'Verif.Mapped.Vector.second_term_finds_next_insertion' depends on axioms: [propext, Classical.choice, Quot.sound] -/
#guard_msgs (whitespace := lax) in
#print axioms Verif.Mapped.Vector.second_term_finds_next_insertion

/-- info: 'Verif.Mapped.Pointer.exact_history' depends on axioms: [propext, Classical.choice, Quot.sound] -/
#guard_msgs (whitespace := lax) in
#print axioms Verif.Mapped.Pointer.exact_history

/-- info: 'Verif.Mapped.Pointer.exact_no_leak' depends on axioms: [propext, Classical.choice, Quot.sound] -/
#guard_msgs (whitespace := lax) in
#print axioms Verif.Mapped.Pointer.exact_no_leak

/-- info: 'Verif.Mapped.Pointer.second_term_finds_successor' depends on axioms: [propext, Classical.choice, Quot.sound] -/
#guard_msgs (whitespace := lax) in
#print axioms Verif.Mapped.Pointer.second_term_finds_successor

/-- info: 'Verif.Mapped.DualPtr.exact_history' depends on axioms: [propext, Classical.choice, Quot.sound] -/
#guard_msgs (whitespace := lax) in
#print axioms Verif.Mapped.DualPtr.exact_history

/-- info: 'Verif.Mapped.DualPtr.exact_state' depends on axioms: [propext, Classical.choice, Quot.sound] -/
#guard_msgs (whitespace := lax) in
#print axioms Verif.Mapped.DualPtr.exact_state

/-- info: 'Verif.Mapped.DualPtr.exact_no_leak' depends on axioms: [propext, Classical.choice, Quot.sound] -/
#guard_msgs (whitespace := lax) in
#print axioms Verif.Mapped.DualPtr.exact_no_leak

/-- info: 'Verif.Mapped.DualPtr.insert_keeps_first' depends on axioms: [propext, Classical.choice, Quot.sound] -/
#guard_msgs (whitespace := lax) in
#print axioms Verif.Mapped.DualPtr.insert_keeps_first

/-- info: 'Verif.Mapped.DualPtr.removal_takes_default' depends on axioms: [propext, Classical.choice, Quot.sound] -/
#guard_msgs (whitespace := lax) in
#print axioms Verif.Mapped.DualPtr.removal_takes_default

/-- info: 'Verif.Mapped.Str.exact_stable' depends on axioms: [propext, Classical.choice, Quot.sound] -/
#guard_msgs (whitespace := lax) in
#print axioms Verif.Mapped.Str.exact_stable

/-- info: 'Verif.Mapped.Str.exact_unstable' depends on axioms: [propext, Classical.choice, Quot.sound] -/
#guard_msgs (whitespace := lax) in
#print axioms Verif.Mapped.Str.exact_unstable

/-- info: 'Verif.Mapped.Str.refused_iff_found' depends on axioms: [propext, Classical.choice, Quot.sound] -/
#guard_msgs (whitespace := lax) in
#print axioms Verif.Mapped.Str.refused_iff_found

/-- info: 'Verif.Mapped.Str.keyless_removal_hides_empty' depends on axioms: [propext, Classical.choice, Quot.sound] -/
#guard_msgs (whitespace := lax) in
#print axioms Verif.Mapped.Str.keyless_removal_hides_empty

/-- info: 'Verif.Mapped.Dual.exact_unstable' depends on axioms: [propext, Classical.choice, Quot.sound] -/
#guard_msgs (whitespace := lax) in
#print axioms Verif.Mapped.Dual.exact_unstable

/-- info: 'Verif.Mapped.Dual.exact_stable' depends on axioms: [propext, Classical.choice, Quot.sound] -/
#guard_msgs (whitespace := lax) in
#print axioms Verif.Mapped.Dual.exact_stable

/-- info: 'Verif.Mapped.DualStr.exact_unstable' depends on axioms: [propext, Classical.choice, Quot.sound] -/
#guard_msgs (whitespace := lax) in
#print axioms Verif.Mapped.DualStr.exact_unstable

/-- info: 'Verif.Mapped.DualStr.exact_stable' depends on axioms: [propext, Classical.choice, Quot.sound] -/
#guard_msgs (whitespace := lax) in
#print axioms Verif.Mapped.DualStr.exact_stable

/-- info: 'Verif.Mapped.DualStr.exact_state' depends on axioms: [propext, Classical.choice, Quot.sound] -/
#guard_msgs (whitespace := lax) in
#print axioms Verif.Mapped.DualStr.exact_state

/-- info: 'Verif.Mapped.DualStr.exact_state_unstable' depends on axioms: [propext, Classical.choice, Quot.sound] -/
#guard_msgs (whitespace := lax) in
#print axioms Verif.Mapped.DualStr.exact_state_unstable

/-- info: 'Verif.WorkBlock.Prog.programs' depends on axioms: [propext, Quot.sound] -/
#guard_msgs (whitespace := lax) in
#print axioms Verif.WorkBlock.Prog.programs

/-- info: 'Verif.WorkBlock.Prog.future_settled' depends on axioms: [propext, Quot.sound] -/
#guard_msgs (whitespace := lax) in
#print axioms Verif.WorkBlock.Prog.future_settled

/-- info: 'Verif.WorkBlock.Prog.future_awaits_block' depends on axioms: [propext, Quot.sound] -/
#guard_msgs (whitespace := lax) in
#print axioms Verif.WorkBlock.Prog.future_awaits_block

/-- info: 'Verif.WorkBlock.Prog.runs_at_most_planned' depends on axioms: [propext, Quot.sound] -/
#guard_msgs (whitespace := lax) in
#print axioms Verif.WorkBlock.Prog.runs_at_most_planned

/-- info: 'Verif.CircularBuffer.no_int_overflow' depends on axioms: [propext, Classical.choice, Quot.sound] -/
#guard_msgs (whitespace := lax) in
#print axioms Verif.CircularBuffer.no_int_overflow

/-- info: 'Verif.StackBuffer.no_int_overflow_partial' depends on axioms: [propext, Classical.choice, Quot.sound] -/
#guard_msgs (whitespace := lax) in
#print axioms Verif.StackBuffer.no_int_overflow_partial

/-- info: 'Verif.StackBuffer.no_int_overflow_side_by_side_partial' depends on axioms: [propext, Classical.choice, Quot.sound] -/
#guard_msgs (whitespace := lax) in
#print axioms Verif.StackBuffer.no_int_overflow_side_by_side_partial

/-- info: 'Verif.StackBuffer.overflow_violation' depends on axioms: [propext, Quot.sound] -/
#guard_msgs (whitespace := lax) in
#print axioms Verif.StackBuffer.overflow_violation

/-- info: 'Verif.Block.Iter.wide_add_partial' depends on axioms: [propext, Quot.sound] -/
#guard_msgs (whitespace := lax) in
#print axioms Verif.Block.Iter.wide_add_partial

/-- info: 'Verif.Block.Iter.wide_sub_partial' depends on axioms: [propext, Classical.choice, Quot.sound] -/
#guard_msgs (whitespace := lax) in
#print axioms Verif.Block.Iter.wide_sub_partial

/-- info: 'Verif.Block.Iter.wide_movement_small_partial' depends on axioms: [propext, Classical.choice, Quot.sound] -/
#guard_msgs (whitespace := lax) in
#print axioms Verif.Block.Iter.wide_movement_small_partial

/-- info: 'Verif.Block.Iter.wide_movement_lost' depends on axioms: [propext, Quot.sound] -/
#guard_msgs (whitespace := lax) in
#print axioms Verif.Block.Iter.wide_movement_lost

/-- info: 'Verif.Block.Iter.wide_movement_violation' depends on axioms: [propext, Classical.choice, Quot.sound] -/
#guard_msgs (whitespace := lax) in
#print axioms Verif.Block.Iter.wide_movement_violation

/-- info: 'Verif.Block.Iter.wide_movement_full_violation' depends on axioms: [propext, Classical.choice, Quot.sound] -/
#guard_msgs (whitespace := lax) in
#print axioms Verif.Block.Iter.wide_movement_full_violation

/-- info: 'Verif.Block.Iter.addresses_in_blocks_partial' depends on axioms: [propext, Classical.choice, Quot.sound] -/
#guard_msgs (whitespace := lax) in
#print axioms Verif.Block.Iter.addresses_in_blocks_partial

/-- info: 'Verif.Block.Iter.addresses_computed' depends on axioms: [propext] -/
#guard_msgs (whitespace := lax) in
#print axioms Verif.Block.Iter.addresses_computed

/-- info: 'Verif.Block.Iter.addresses_in_blocks_violation' depends on axioms: [propext] -/
#guard_msgs (whitespace := lax) in
#print axioms Verif.Block.Iter.addresses_in_blocks_violation

/-- info: 'Verif.Block.Vector.ctor_throw_leak' depends on axioms: [propext, Classical.choice, Quot.sound] -/
#guard_msgs (whitespace := lax) in
#print axioms Verif.Block.Vector.ctor_throw_leak

/-- info: 'Verif.Block.Vector.ctor_not_reached' depends on axioms: [propext, Classical.choice, Quot.sound] -/
#guard_msgs (whitespace := lax) in
#print axioms Verif.Block.Vector.ctor_not_reached

/-- info: 'Verif.Block.Vector.ctor_ended' depends on axioms: [propext, Classical.choice, Quot.sound] -/
#guard_msgs (whitespace := lax) in
#print axioms Verif.Block.Vector.ctor_ended

/-- info: 'Verif.Block.Vector.ctor_throw_array_partial' depends on axioms: [propext, Classical.choice, Quot.sound] -/
#guard_msgs (whitespace := lax) in
#print axioms Verif.Block.Vector.ctor_throw_array_partial

/-- info: 'Verif.Block.Vector.ctor_throw_violation' depends on axioms: [propext, Classical.choice, Quot.sound] -/
#guard_msgs (whitespace := lax) in
#print axioms Verif.Block.Vector.ctor_throw_violation

/-- info: 'Verif.Block.Deque.ctor_throw_leak' depends on axioms: [propext, Classical.choice, Quot.sound] -/
#guard_msgs (whitespace := lax) in
#print axioms Verif.Block.Deque.ctor_throw_leak

/-- info: 'Verif.Block.Deque.ctor_throw_array_partial' depends on axioms: [propext, Classical.choice, Quot.sound] -/
#guard_msgs (whitespace := lax) in
#print axioms Verif.Block.Deque.ctor_throw_array_partial

/-- info: 'Verif.Block.Deque.ctor_throw_violation' depends on axioms: [propext, Classical.choice, Quot.sound] -/
#guard_msgs (whitespace := lax) in
#print axioms Verif.Block.Deque.ctor_throw_violation

/-- info: 'Verif.Block.Vector.iterate_written_partial' depends on axioms: [propext, Classical.choice, Quot.sound] -/
#guard_msgs (whitespace := lax) in
#print axioms Verif.Block.Vector.iterate_written_partial

/-- info: 'Verif.Block.Vector.updates_written_partial' depends on axioms: [propext, Classical.choice, Quot.sound] -/
#guard_msgs (whitespace := lax) in
#print axioms Verif.Block.Vector.updates_written_partial

/-- info: 'Verif.Block.Vector.push_only_iterate' depends on axioms: [propext, Classical.choice, Quot.sound] -/
#guard_msgs (whitespace := lax) in
#print axioms Verif.Block.Vector.push_only_iterate

/-- info: 'Verif.Block.Deque.iterate_written_partial' depends on axioms: [propext, Classical.choice, Quot.sound] -/
#guard_msgs (whitespace := lax) in
#print axioms Verif.Block.Deque.iterate_written_partial

/-- info: 'Verif.Block.Deque.updates_written_partial' depends on axioms: [propext, Classical.choice, Quot.sound] -/
#guard_msgs (whitespace := lax) in
#print axioms Verif.Block.Deque.updates_written_partial

/-- info: 'Verif.Block.Deque.push_only_growth' depends on axioms: [propext, Classical.choice, Quot.sound] -/
#guard_msgs (whitespace := lax) in
#print axioms Verif.Block.Deque.push_only_growth

/-- info: 'Verif.Block.Vector.int_members_partial' depends on axioms: [propext, Classical.choice, Quot.sound] -/
#guard_msgs (whitespace := lax) in
#print axioms Verif.Block.Vector.int_members_partial

/-- info: 'Verif.Block.Vector.memory_bounded' depends on axioms: [propext, Classical.choice, Quot.sound] -/
#guard_msgs (whitespace := lax) in
#print axioms Verif.Block.Vector.memory_bounded

/-- info: 'Verif.Block.Vector.push_only_int_members' depends on axioms: [propext, Classical.choice, Quot.sound] -/
#guard_msgs (whitespace := lax) in
#print axioms Verif.Block.Vector.push_only_int_members

/-- info: 'Verif.Block.Vector.newSize_int_members' depends on axioms: [propext, Classical.choice, Quot.sound] -/
#guard_msgs (whitespace := lax) in
#print axioms Verif.Block.Vector.newSize_int_members

/-- info: 'Verif.Block.Deque.int_members_partial' depends on axioms: [propext, Classical.choice, Quot.sound] -/
#guard_msgs (whitespace := lax) in
#print axioms Verif.Block.Deque.int_members_partial

/-- info: 'Verif.Block.Deque.memory_bounded' depends on axioms: [propext, Classical.choice, Quot.sound] -/
#guard_msgs (whitespace := lax) in
#print axioms Verif.Block.Deque.memory_bounded

/-- info: 'Verif.Block.Deque.push_only_int_members' depends on axioms: [propext, Classical.choice, Quot.sound] -/
#guard_msgs (whitespace := lax) in
#print axioms Verif.Block.Deque.push_only_int_members

/-- info: 'Verif.Block.Deque.newSize_int_members' depends on axioms: [propext, Classical.choice, Quot.sound] -/
#guard_msgs (whitespace := lax) in
#print axioms Verif.Block.Deque.newSize_int_members

/-- info: 'Verif.WorkQueue.Inner.inner_close_partial' depends on axioms: [propext, Classical.choice, Quot.sound] -/
#guard_msgs (whitespace := lax) in
#print axioms Verif.WorkQueue.Inner.inner_close_partial

/-- info: 'Verif.WorkQueue.Inner.never_returns' depends on axioms: [propext, Classical.choice, Quot.sound] -/
#guard_msgs (whitespace := lax) in
#print axioms Verif.WorkQueue.Inner.never_returns

/-- info: 'Verif.WorkQueue.Inner.close_again' depends on axioms: [propext, Quot.sound] -/
#guard_msgs (whitespace := lax) in
#print axioms Verif.WorkQueue.Inner.close_again

/-- info: 'Verif.WorkQueue.Inner.lock_given_up' depends on axioms: [propext, Quot.sound] -/
#guard_msgs (whitespace := lax) in
#print axioms Verif.WorkQueue.Inner.lock_given_up

/-- info: 'Verif.WorkQueue.Inner.inner_close_violation' depends on axioms: [propext, Quot.sound] -/
#guard_msgs (whitespace := lax) in
#print axioms Verif.WorkQueue.Inner.inner_close_violation

/-- info: 'Verif.WorkQueue.Inner.two_blocks_violation' depends on axioms: [propext, Classical.choice, Quot.sound] -/
#guard_msgs (whitespace := lax) in
#print axioms Verif.WorkQueue.Inner.two_blocks_violation

/-- info: 'Verif.WorkBlock.Tasks.future_settled' depends on axioms: [propext, Quot.sound] -/
#guard_msgs (whitespace := lax) in
#print axioms Verif.WorkBlock.Tasks.future_settled

/-- info: 'Verif.WorkBlock.Tasks.no_future_waits' depends on axioms: [propext, Quot.sound] -/
#guard_msgs (whitespace := lax) in
#print axioms Verif.WorkBlock.Tasks.no_future_waits

/-- info: 'Verif.WorkBlock.Tasks.given_runs_partial' depends on axioms: [propext, Quot.sound] -/
#guard_msgs (whitespace := lax) in
#print axioms Verif.WorkBlock.Tasks.given_runs_partial

/-- info: 'Verif.WorkBlock.Tasks.updated_runs_partial' depends on axioms: [propext, Quot.sound] -/
#guard_msgs (whitespace := lax) in
#print axioms Verif.WorkBlock.Tasks.updated_runs_partial

/-- info: 'Verif.WorkBlock.Tasks.given_future_broken' depends on axioms: [propext, Quot.sound] -/
#guard_msgs (whitespace := lax) in
#print axioms Verif.WorkBlock.Tasks.given_future_broken

/-- info: 'Verif.WorkBlock.Tasks.updated_future_lost' depends on axioms: [propext, Quot.sound] -/
#guard_msgs (whitespace := lax) in
#print axioms Verif.WorkBlock.Tasks.updated_future_lost

/-- info: 'Verif.WorkBlock.Tasks.given_violation' depends on axioms: [propext] -/
#guard_msgs (whitespace := lax) in
#print axioms Verif.WorkBlock.Tasks.given_violation

/-- info: 'Verif.WorkBlock.Tasks.updated_violation' depends on axioms: [propext] -/
#guard_msgs (whitespace := lax) in
#print axioms Verif.WorkBlock.Tasks.updated_violation

/-- info: 'Verif.WorkBlock.memory_exact' depends on axioms: [propext, Quot.sound] -/
#guard_msgs (whitespace := lax) in
#print axioms Verif.WorkBlock.memory_exact

/-- info: 'Verif.WorkBlock.failed_reset_partial' depends on axioms: [propext, Quot.sound] -/
#guard_msgs (whitespace := lax) in
#print axioms Verif.WorkBlock.failed_reset_partial

/-- info: 'Verif.WorkBlock.failed_ctor' depends on axioms: [propext, Quot.sound] -/
#guard_msgs (whitespace := lax) in
#print axioms Verif.WorkBlock.failed_ctor

/-- info: 'Verif.WorkBlock.failed_update_loses' depends on axioms: [propext, Quot.sound] -/
#guard_msgs (whitespace := lax) in
#print axioms Verif.WorkBlock.failed_update_loses

/-- info: 'Verif.WorkBlock.update_recovers' depends on axioms: [propext, Quot.sound] -/
#guard_msgs (whitespace := lax) in
#print axioms Verif.WorkBlock.update_recovers

/-- info: 'Verif.WorkBlock.failed_task_ctor_breaks' depends on axioms: [propext, Quot.sound] -/
#guard_msgs (whitespace := lax) in
#print axioms Verif.WorkBlock.failed_task_ctor_breaks

/-- info: 'Verif.WorkBlock.failed_update_violation' depends on axioms: [propext, Quot.sound] -/
#guard_msgs (whitespace := lax) in
#print axioms Verif.WorkBlock.failed_update_violation

/-- info: 'Verif.Block.Vector.noexcept_no_memory' depends on axioms: [propext, Quot.sound] -/
#guard_msgs (whitespace := lax) in
#print axioms Verif.Block.Vector.noexcept_no_memory

/-- info: 'Verif.Block.Vector.pop_exact' depends on axioms: [propext, Quot.sound] -/
#guard_msgs (whitespace := lax) in
#print axioms Verif.Block.Vector.pop_exact

/-- info: 'Verif.Block.Vector.clear_exact' depends on axioms: [propext, Quot.sound] -/
#guard_msgs (whitespace := lax) in
#print axioms Verif.Block.Vector.clear_exact

/-- info: 'Verif.Block.Vector.push_exact' depends on axioms: [propext, Classical.choice, Quot.sound] -/
#guard_msgs (whitespace := lax) in
#print axioms Verif.Block.Vector.push_exact

/-- info: 'Verif.Block.Vector.pop_no_memory_partial' depends on axioms: [propext, Classical.choice, Quot.sound] -/
#guard_msgs (whitespace := lax) in
#print axioms Verif.Block.Vector.pop_no_memory_partial

/-- info: 'Verif.Block.Vector.clear_no_memory_partial' depends on axioms: [propext, Classical.choice, Quot.sound] -/
#guard_msgs (whitespace := lax) in
#print axioms Verif.Block.Vector.clear_no_memory_partial

/-- info: 'Verif.Block.Vector.sized_requests' depends on axioms: [propext, Quot.sound] -/
#guard_msgs (whitespace := lax) in
#print axioms Verif.Block.Vector.sized_requests

/-- info: 'Verif.Block.Vector.pop_terminates_violation' depends on axioms: [propext, Classical.choice, Quot.sound] -/
#guard_msgs (whitespace := lax) in
#print axioms Verif.Block.Vector.pop_terminates_violation

/-- info: 'Verif.Block.Vector.clear_terminates_violation' depends on axioms: [propext, Classical.choice, Quot.sound] -/
#guard_msgs (whitespace := lax) in
#print axioms Verif.Block.Vector.clear_terminates_violation

/-- info: 'Verif.Block.Vector.push_terminates_violation' depends on axioms: [propext, Classical.choice, Quot.sound] -/
#guard_msgs (whitespace := lax) in
#print axioms Verif.Block.Vector.push_terminates_violation

/-- info: 'Verif.Block.Deque.pop_no_memory_partial' depends on axioms: [propext, Classical.choice, Quot.sound] -/
#guard_msgs (whitespace := lax) in
#print axioms Verif.Block.Deque.pop_no_memory_partial

/-- info: 'Verif.Block.Deque.pop_requests' depends on axioms: [propext, Quot.sound] -/
#guard_msgs (whitespace := lax) in
#print axioms Verif.Block.Deque.pop_requests

/-- info: 'Verif.Block.Deque.pop_back_threw_violation' depends on axioms: [propext, Classical.choice, Quot.sound] -/
#guard_msgs (whitespace := lax) in
#print axioms Verif.Block.Deque.pop_back_threw_violation

/-- info: 'Verif.Block.Deque.pop_front_threw_violation' depends on axioms: [propext, Classical.choice, Quot.sound] -/
#guard_msgs (whitespace := lax) in
#print axioms Verif.Block.Deque.pop_front_threw_violation

/-- info: 'Verif.Block.Deque.pop_threw_leaks_violation' depends on axioms: [propext, Classical.choice, Quot.sound] -/
#guard_msgs (whitespace := lax) in
#print axioms Verif.Block.Deque.pop_threw_leaks_violation

/-- info: 'Verif.Block.Deque.noexcept_no_memory_partial' depends on axioms: [propext, Quot.sound] -/
#guard_msgs (whitespace := lax) in
#print axioms Verif.Block.Deque.noexcept_no_memory_partial

/-- info: 'Verif.Block.Deque.clear_exact' depends on axioms: [propext, Classical.choice, Quot.sound] -/
#guard_msgs (whitespace := lax) in
#print axioms Verif.Block.Deque.clear_exact

/-- info: 'Verif.Block.Deque.clear_terminates_violation' depends on axioms: [propext, Classical.choice, Quot.sound] -/
#guard_msgs (whitespace := lax) in
#print axioms Verif.Block.Deque.clear_terminates_violation

/-- info: 'Verif.Mapped.Vector.removal_no_memory_partial' depends on axioms: [propext, Classical.choice, Quot.sound] -/
#guard_msgs (whitespace := lax) in
#print axioms Verif.Mapped.Vector.removal_no_memory_partial

/-- info: 'Verif.Mapped.Vector.clear_terminates_violation' depends on axioms: [propext, Classical.choice, Quot.sound] -/
#guard_msgs (whitespace := lax) in
#print axioms Verif.Mapped.Vector.clear_terminates_violation

/-- info: 'Verif.Mapped.Vector.remove_terminates_violation' depends on axioms: [propext, Classical.choice, Quot.sound] -/
#guard_msgs (whitespace := lax) in
#print axioms Verif.Mapped.Vector.remove_terminates_violation

/-- info: 'Verif.Mapped.Str.kept_exact_stable' depends on axioms: [propext, Classical.choice, Quot.sound] -/
#guard_msgs (whitespace := lax) in
#print axioms Verif.Mapped.Str.kept_exact_stable

/-- info: 'Verif.Mapped.Str.kept_exact_unstable' depends on axioms: [propext, Classical.choice, Quot.sound] -/
#guard_msgs (whitespace := lax) in
#print axioms Verif.Mapped.Str.kept_exact_unstable

/-- info: 'Verif.Mapped.Str.kept_bounded_partial' depends on axioms: [propext, Classical.choice, Quot.sound] -/
#guard_msgs (whitespace := lax) in
#print axioms Verif.Mapped.Str.kept_bounded_partial

/-- info: 'Verif.Mapped.Str.kept_grows_violation' depends on axioms: [propext, Classical.choice, Quot.sound] -/
#guard_msgs (whitespace := lax) in
#print axioms Verif.Mapped.Str.kept_grows_violation

/-- info: 'Verif.Mapped.DualStr.kept_exact_stable' depends on axioms: [propext, Classical.choice, Quot.sound] -/
#guard_msgs (whitespace := lax) in
#print axioms Verif.Mapped.DualStr.kept_exact_stable

/-- info: 'Verif.Mapped.DualStr.kept_exact_unstable' depends on axioms: [propext, Classical.choice, Quot.sound] -/
#guard_msgs (whitespace := lax) in
#print axioms Verif.Mapped.DualStr.kept_exact_unstable

/-- info: 'Verif.Mapped.DualStr.kept_bounded_partial' depends on axioms: [propext, Classical.choice, Quot.sound] -/
#guard_msgs (whitespace := lax) in
#print axioms Verif.Mapped.DualStr.kept_bounded_partial

/-- info: 'Verif.Mapped.DualStr.kept_grows_violation' depends on axioms: [propext, Classical.choice, Quot.sound] -/
#guard_msgs (whitespace := lax) in
#print axioms Verif.Mapped.DualStr.kept_grows_violation

/-- info: 'Verif.Mapped.DualStr.refused_term_kept_violation' depends on axioms: [propext, Classical.choice, Quot.sound] -/
#guard_msgs (whitespace := lax) in
#print axioms Verif.Mapped.DualStr.refused_term_kept_violation

/-- info: 'Verif.Mapped.assign_threw_partial' depends on axioms: [propext, Classical.choice, Quot.sound] -/
#guard_msgs (whitespace := lax) in
#print axioms Verif.Mapped.assign_threw_partial

/-- info: 'Verif.Mapped.dual_assign_threw_partial' depends on axioms: [propext, Classical.choice, Quot.sound] -/
#guard_msgs (whitespace := lax) in
#print axioms Verif.Mapped.dual_assign_threw_partial

/-- info: 'Verif.Mapped.assign_threw_data_violation' depends on axioms: [propext, Classical.choice, Quot.sound] -/
#guard_msgs (whitespace := lax) in
#print axioms Verif.Mapped.assign_threw_data_violation

/-- info: 'Verif.Mapped.assign_threw_map_violation' depends on axioms: [propext, Classical.choice, Quot.sound] -/
#guard_msgs (whitespace := lax) in
#print axioms Verif.Mapped.assign_threw_map_violation

/-- info: 'Verif.Mapped.dual_assign_threw_violation' depends on axioms: [propext, Classical.choice, Quot.sound] -/
#guard_msgs (whitespace := lax) in
#print axioms Verif.Mapped.dual_assign_threw_violation

/-- info: 'Verif.Block.Vector.old_iterator_partial' depends on axioms: [propext, Classical.choice, Quot.sound] -/
#guard_msgs (whitespace := lax) in
#print axioms Verif.Block.Vector.old_iterator_partial

/-- info: 'Verif.Block.Vector.old_iterator_violation' depends on axioms: [propext, Classical.choice, Quot.sound] -/
#guard_msgs (whitespace := lax) in
#print axioms Verif.Block.Vector.old_iterator_violation

/-- info: 'Verif.Block.Deque.old_iterator_partial' depends on axioms: [propext, Classical.choice, Quot.sound] -/
#guard_msgs (whitespace := lax) in
#print axioms Verif.Block.Deque.old_iterator_partial

/-- info: 'Verif.Block.Deque.old_iterator_few_partial' depends on axioms: [propext, Classical.choice, Quot.sound] -/
#guard_msgs (whitespace := lax) in
#print axioms Verif.Block.Deque.old_iterator_few_partial

/-- info: 'Verif.Block.Deque.old_iterator_shifted_violation' depends on axioms: [propext, Classical.choice, Quot.sound] -/
#guard_msgs (whitespace := lax) in
#print axioms Verif.Block.Deque.old_iterator_shifted_violation

/-- info: 'Verif.Block.Deque.old_iterator_grown_violation' depends on axioms: [propext, Classical.choice, Quot.sound] -/
#guard_msgs (whitespace := lax) in
#print axioms Verif.Block.Deque.old_iterator_grown_violation

/-- info: 'Verif.Block.Vector.self_push' depends on axioms: [propext, Classical.choice, Quot.sound] -/
#guard_msgs (whitespace := lax) in
#print axioms Verif.Block.Vector.self_push

/-- info: 'Verif.Block.Deque.self_push_back_partial' depends on axioms: [propext, Classical.choice, Quot.sound] -/
#guard_msgs (whitespace := lax) in
#print axioms Verif.Block.Deque.self_push_back_partial

/-- info: 'Verif.Block.Deque.self_push_front_partial' depends on axioms: [propext, Classical.choice, Quot.sound] -/
#guard_msgs (whitespace := lax) in
#print axioms Verif.Block.Deque.self_push_front_partial

/-- info: 'Verif.Block.Vector.swap_exact' depends on axioms: [propext, Quot.sound] -/
#guard_msgs (whitespace := lax) in
#print axioms Verif.Block.Vector.swap_exact

/-- info: 'Verif.Block.Vector.swap_seen' depends on axioms: [propext, Classical.choice, Quot.sound] -/
#guard_msgs (whitespace := lax) in
#print axioms Verif.Block.Vector.swap_seen

/-- info: 'Verif.CircularBuffer.std_swap_exact' depends on axioms: [propext, Quot.sound] -/
#guard_msgs (whitespace := lax) in
#print axioms Verif.CircularBuffer.std_swap_exact

/-- info: 'Verif.CircularBuffer.std_swap_seen' depends on axioms: [propext, Quot.sound] -/
#guard_msgs (whitespace := lax) in
#print axioms Verif.CircularBuffer.std_swap_seen

/-- info: 'Verif.StackBuffer.std_swap_exact' depends on axioms: [propext, Quot.sound] -/
#guard_msgs (whitespace := lax) in
#print axioms Verif.StackBuffer.std_swap_exact

/-- info: 'Verif.StackBuffer.std_swap_seen' depends on axioms: [propext, Quot.sound] -/
#guard_msgs (whitespace := lax) in
#print axioms Verif.StackBuffer.std_swap_seen

/-- info: 'Verif.StackBuffer.member_swap_exact' depends on axioms: [propext, Quot.sound] -/
#guard_msgs (whitespace := lax) in
#print axioms Verif.StackBuffer.member_swap_exact

/-- info: 'Verif.Block.Deque.swap_exact' depends on axioms: [propext, Quot.sound] -/
#guard_msgs (whitespace := lax) in
#print axioms Verif.Block.Deque.swap_exact

/-- info: 'Verif.Block.Deque.swap_seen_partial' depends on axioms: [propext, Classical.choice, Quot.sound] -/
#guard_msgs (whitespace := lax) in
#print axioms Verif.Block.Deque.swap_seen_partial

/-- info: 'Verif.SimpleQueue.life_partial' depends on axioms: [propext, Classical.choice, Quot.sound] -/
#guard_msgs (whitespace := lax) in
#print axioms Verif.SimpleQueue.life_partial

/-- info: 'Verif.SimpleQueue.life_noEmpty_partial' depends on axioms: [propext, Classical.choice, Quot.sound] -/
#guard_msgs (whitespace := lax) in
#print axioms Verif.SimpleQueue.life_noEmpty_partial

/-- info: 'Verif.SimpleQueue.std_swap_partial' depends on axioms: [propext, Classical.choice, Quot.sound] -/
#guard_msgs (whitespace := lax) in
#print axioms Verif.SimpleQueue.std_swap_partial

/-- info: 'Verif.BlockingQueue.life_partial' depends on axioms: [propext, Classical.choice, Quot.sound] -/
#guard_msgs (whitespace := lax) in
#print axioms Verif.BlockingQueue.life_partial

/-- info: 'Verif.BlockingQueue.std_swap_partial' depends on axioms: [propext, Classical.choice, Quot.sound] -/
#guard_msgs (whitespace := lax) in
#print axioms Verif.BlockingQueue.std_swap_partial

/-- info: 'Verif.BlockingQueue.life_sequential_partial' depends on axioms: [propext, Quot.sound] -/
#guard_msgs (whitespace := lax) in
#print axioms Verif.BlockingQueue.life_sequential_partial

/-- info: 'Verif.BlockingQueue.std_swap_sequential_partial' depends on axioms: [propext, Quot.sound] -/
#guard_msgs (whitespace := lax) in
#print axioms Verif.BlockingQueue.std_swap_sequential_partial

/-- info: 'Verif.BlockingPriorityQueue.life_partial' depends on axioms: [propext, Classical.choice, Quot.sound] -/
#guard_msgs (whitespace := lax) in
#print axioms Verif.BlockingPriorityQueue.life_partial

/-- info: 'Verif.BlockingPriorityQueue.std_swap_partial' depends on axioms: [propext, Classical.choice, Quot.sound] -/
#guard_msgs (whitespace := lax) in
#print axioms Verif.BlockingPriorityQueue.std_swap_partial

/-- info: 'Verif.BlockingPriorityQueue.life_sequential_partial' depends on axioms: [propext, Quot.sound] -/
#guard_msgs (whitespace := lax) in
#print axioms Verif.BlockingPriorityQueue.life_sequential_partial

/-- info: 'Verif.Mapped.Several.swap_vector' depends on axioms: [propext, Quot.sound] -/
#guard_msgs (whitespace := lax) in
#print axioms Verif.Mapped.Several.swap_vector

/-- info: 'Verif.Mapped.Several.swap_stable' depends on axioms: [propext, Quot.sound] -/
#guard_msgs (whitespace := lax) in
#print axioms Verif.Mapped.Several.swap_stable

/-- info: 'Verif.Mapped.SeveralPtr.mapped_swap' depends on axioms: [propext, Quot.sound] -/
#guard_msgs (whitespace := lax) in
#print axioms Verif.Mapped.SeveralPtr.mapped_swap

/-- info: 'Verif.Mapped.SeveralPtr.dual_swap' depends on axioms: [propext, Quot.sound] -/
#guard_msgs (whitespace := lax) in
#print axioms Verif.Mapped.SeveralPtr.dual_swap

/-- info: 'Verif.Mapped.SeveralStr.swap_vector' depends on axioms: [propext, Quot.sound] -/
#guard_msgs (whitespace := lax) in
#print axioms Verif.Mapped.SeveralStr.swap_vector

/-- info: 'Verif.Mapped.SeveralStr.swap_stable' depends on axioms: [propext, Quot.sound] -/
#guard_msgs (whitespace := lax) in
#print axioms Verif.Mapped.SeveralStr.swap_stable

/-- info: 'Verif.WorkBlock.StdSwap.swap_exact' depends on axioms: [propext, Quot.sound] -/
#guard_msgs (whitespace := lax) in
#print axioms Verif.WorkBlock.StdSwap.swap_exact

/-- info: 'Verif.WorkBlock.StdSwap.swap_seen' depends on axioms: [propext, Quot.sound] -/
#guard_msgs (whitespace := lax) in
#print axioms Verif.WorkBlock.StdSwap.swap_seen

/-- info: 'Verif.SimpleQueue.source_sound' depends on axioms: [propext, Classical.choice, Quot.sound] -/
#guard_msgs (whitespace := lax) in
#print axioms Verif.SimpleQueue.source_sound

/-- info: 'Verif.SimpleQueue.assign_actual' depends on axioms: [propext, Classical.choice, Quot.sound] -/
#guard_msgs (whitespace := lax) in
#print axioms Verif.SimpleQueue.assign_actual

/-- info: 'Verif.SimpleQueue.assign_fifo' depends on axioms: [propext, Classical.choice, Quot.sound] -/
#guard_msgs (whitespace := lax) in
#print axioms Verif.SimpleQueue.assign_fifo

/-- info: 'Verif.Blocking.assign_wakes_partial' depends on axioms: [propext, Quot.sound] -/
#guard_msgs (whitespace := lax) in
#print axioms Verif.Blocking.assign_wakes_partial

/-- info: 'Verif.Blocking.assign_waiter_violation' depends on axioms: [propext, Quot.sound] -/
#guard_msgs (whitespace := lax) in
#print axioms Verif.Blocking.assign_waiter_violation

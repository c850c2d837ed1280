{
 "claims": [
  {
   "property": "C01",
   "status": "partial",
   "theorems": [
    "Verif.CircularBuffer.fifo_partial",
    "Verif.CircularBuffer.fifo_order_partial",
    "Verif.CircularBuffer.objects_session_partial",
    "Verif.CircularBuffer.fifo_violation",
    "Verif.CircularBuffer.fifo_violation_duplicate",
    "Verif.CircularBuffer.fifo_violation_loss",
    "Verif.CircularBuffer.fifo_margin_tight",
    "Verif.CircularBuffer.exact_fill_loses_everything",
    "Verif.CircularBuffer.fifo_exact_partial",
    "Verif.CircularBuffer.push_safe_iff"
   ],
   "note": "Proved for every client that pushes only after isSpaceAvailable(size+8), and for every client that does not overfill the buffer; each overfilling push breaks it (push_safe_iff, C114)."
  },
  {
   "property": "C02",
   "status": "partial",
   "theorems": [
    "Verif.CircularBuffer.inBounds_partial",
    "Verif.CircularBuffer.objects_session_partial",
    "Verif.CircularBuffer.inBounds_violation"
   ],
   "note": "Same clients as C01; out-of-bounds write witness for the others."
  },
  {
   "property": "C03",
   "status": "proved",
   "theorems": [
    "Verif.CircularBuffer.push_iff_space",
    "Verif.CircularBuffer.push_refused",
    "Verif.CircularBuffer.owner_push_iff_space"
   ],
   "note": "All states, all arguments."
  },
  {
   "property": "C04",
   "status": "partial",
   "theorems": [
    "Verif.CircularBuffer.pop_protocol_partial",
    "Verif.CircularBuffer.objects_session_partial"
   ],
   "note": "Clients of C01."
  },
  {
   "property": "C05",
   "status": "partial",
   "theorems": [
    "Verif.CircularBuffer.resize_safe_iff",
    "Verif.CircularBuffer.resize_grow",
    "Verif.CircularBuffer.resize_never_too_small",
    "Verif.CircularBuffer.resize_throw_unchanged",
    "Verif.CircularBuffer.objects_session_partial",
    "Verif.CircularBuffer.resize_violation"
   ],
   "note": "Growing, resizing when empty, throwing resizes and shrinking that leaves 8 bytes behind the newest message proved; any other shrinking breaks the buffer (resize_safe_iff, C114)."
  },
  {
   "property": "C06",
   "status": "partial",
   "theorems": [
    "Verif.CircularBuffer.objects_session_partial",
    "Verif.CircularBuffer.copy_of_default_violation",
    "Verif.CircularBuffer.size_zero_leak"
   ],
   "note": "Proved except for copy construction from a buffer without memory (witness) and the leak of CircularBuffer(0)."
  },
  {
   "property": "C07",
   "status": "partial",
   "theorems": [
    "Verif.CircularBuffer.empty_accepts_partial",
    "Verif.CircularBuffer.empty_accepts_violation",
    "Verif.CircularBuffer.empty_accepts_iff",
    "Verif.CircularBuffer.one_message"
   ],
   "note": "False in general; exactly characterised by empty_accepts_iff: an empty buffer accepts a message whatever happened before if and only if message and header fit into half the capacity. one_message: what a buffer accepts after one message was pushed and popped."
  },
  {
   "property": "C08",
   "status": "proved",
   "theorems": [
    "Verif.CircularBuffer.space_reclaimed"
   ],
   "note": ""
  },
  {
   "property": "C09",
   "status": "proved",
   "theorems": [
    "Verif.StackBuffer.lifo",
    "Verif.StackBuffer.objects_session_partial"
   ],
   "note": ""
  },
  {
   "property": "C10",
   "status": "proved",
   "theorems": [
    "Verif.StackBuffer.inBounds",
    "Verif.StackBuffer.lifo"
   ],
   "note": "For blocks at least as large as announced. Alignment of the index entries: C112."
  },
  {
   "property": "C11",
   "status": "proved",
   "theorems": [
    "Verif.StackBuffer.push_iff_space",
    "Verif.StackBuffer.push_refused",
    "Verif.StackBuffer.owner_push_iff_space"
   ],
   "note": "All states, all arguments."
  },
  {
   "property": "C12",
   "status": "proved",
   "theorems": [
    "Verif.StackBuffer.pop_protocol"
   ],
   "note": ""
  },
  {
   "property": "C13",
   "status": "proved",
   "theorems": [
    "Verif.StackBuffer.objects_session_partial",
    "Verif.StackBuffer.resize_throw_unchanged"
   ],
   "note": "objects_session_partial covers every resize of every object except objects left behind by a move assignment (C15)."
  },
  {
   "property": "C14",
   "status": "partial",
   "theorems": [
    "Verif.StackBuffer.grow_empty_partial",
    "Verif.StackBuffer.grow_violation",
    "Verif.StackBuffer.resize_nonempty_blocks_push"
   ],
   "note": "True for empty buffers, always false for non-empty ones."
  },
  {
   "property": "C15",
   "status": "partial",
   "theorems": [
    "Verif.StackBuffer.objects_session_partial",
    "Verif.StackBuffer.moved_from_violation"
   ],
   "note": "Everything except reusing the source of a move assignment within its stale capacity (witness)."
  },
  {
   "property": "C16",
   "status": "proved",
   "theorems": [
    "Verif.StackBuffer.space_reclaimed",
    "Verif.StackBuffer.owner_space_reclaimed"
   ],
   "note": ""
  },
  {
   "property": "C70",
   "status": "proved",
   "theorems": [
    "Verif.StackBuffer.space_exact",
    "Verif.StackBuffer.space_reverse_wastes"
   ],
   "note": ""
  },
  {
   "property": "C17",
   "status": "proved",
   "theorems": [
    "Verif.Block.Vector.sequence",
    "Verif.Block.Vector.programs_partial"
   ],
   "note": "sequence covers every history of the property; programs_partial adds copies, moves and iteration."
  },
  {
   "property": "C18",
   "status": "proved",
   "theorems": [
    "Verif.Block.Vector.references_keep_value",
    "Verif.Block.Vector.references_stable"
   ],
   "note": ""
  },
  {
   "property": "C19",
   "status": "partial",
   "theorems": [
    "Verif.Block.Vector.lifecycle",
    "Verif.Block.Vector.lifecycle_copies_partial",
    "Verif.Block.Vector.careful_exact",
    "Verif.Block.Vector.copy_emptied_violation"
   ],
   "note": "careful_exact: in every reachable state exactly the calls excluded are undefined. Complete for all histories without copies and moves; with them except the calls that are themselves undefined (C20-C22 witnesses)."
  },
  {
   "property": "C20",
   "status": "partial",
   "theorems": [
    "Verif.Block.Vector.iteration_partial",
    "Verif.Block.Vector.iteration_mixed_partial",
    "Verif.Block.Vector.iterate_full_undefined",
    "Verif.Block.Vector.careful_exact",
    "Verif.Block.Vector.iterate_full_violation"
   ],
   "note": "Holds except when the reserved block slots are exactly full; there it is false for every block size (proved)."
  },
  {
   "property": "C21",
   "status": "partial",
   "theorems": [
    "Verif.Block.Vector.copy_partial",
    "Verif.Block.Vector.programs_partial",
    "Verif.Block.Vector.lifecycle_copies_partial",
    "Verif.Block.Vector.copy_emptied_calls",
    "Verif.Block.Vector.careful_exact",
    "Verif.Block.Vector.copy_emptied_violation"
   ],
   "note": "Holds except for sources that are empty with reserved memory (copy_emptied_calls: in every reachable state) or exactly fill their slots."
  },
  {
   "property": "C22",
   "status": "partial",
   "theorems": [
    "Verif.Block.Vector.move_partial",
    "Verif.Block.Vector.programs_partial",
    "Verif.Block.Vector.lifecycle_copies_partial",
    "Verif.Block.Vector.moved_ctor_calls",
    "Verif.Block.Vector.moved_from_push_undefined",
    "Verif.Block.Vector.moved_assign_calls",
    "Verif.Block.Vector.moved_from_size_wrong",
    "Verif.Block.Vector.moved_assign_push",
    "Verif.Block.Vector.moved_from_push_violation",
    "Verif.Block.Vector.moved_from_size_violation"
   ],
   "note": "Transfer, destruction and reassignment proved; what every other call on the source does is described exactly in every reachable state (moved_ctor_calls, moved_assign_calls), and insertions are undefined."
  },
  {
   "property": "C23",
   "status": "proved",
   "theorems": [
    "Verif.Block.Vector.checked_at",
    "Verif.Block.Vector.sequence",
    "Verif.Block.Vector.shrink_invisible"
   ],
   "note": ""
  },
  {
   "property": "C24",
   "status": "proved",
   "theorems": [
    "Verif.Block.Iter.add_is_index_add",
    "Verif.Block.Iter.sub_is_index_sub",
    "Verif.Block.Iter.add_sub_cancel",
    "Verif.Block.Iter.eq_iff_same_position",
    "Verif.Block.Iter.deref_is_element",
    "Verif.Block.Iter.post_movement",
    "Verif.Block.Iter.mixed_eq_iff_same_position",
    "Verif.Block.Iter.element_true"
   ],
   "note": ""
  },
  {
   "property": "C25",
   "status": "partial",
   "theorems": [
    "Verif.Block.Iter.negative_movement_partial",
    "Verif.Block.Iter.negative_movement_violation",
    "Verif.Block.Iter.negative_movement_dangles"
   ],
   "note": "True within a block, false across block boundaries (witness)."
  },
  {
   "property": "C26",
   "status": "partial",
   "theorems": [
    "Verif.Block.Deque.sequence_partial",
    "Verif.Block.Deque.programs_partial",
    "Verif.Block.Deque.clear_violation",
    "Verif.Block.Deque.careful_exact",
    "Verif.Block.Deque.assign_full_violation",
    "Verif.Block.Deque.pushFront_overlap_violation",
    "Verif.Block.Deque.pushFront_small_violation"
   ],
   "note": "careful_exact: in every reachable state exactly the calls excluded are undefined. All histories without assign, and without clear of elements with destructors (both covered where they work by programs_partial; witnesses where they do not). Assumes std::copy works on overlapping later ranges, as common libraries do."
  },
  {
   "property": "C27",
   "status": "partial",
   "theorems": [
    "Verif.Block.Deque.references_stable_partial",
    "Verif.Block.Deque.references_stable_simple_partial",
    "Verif.Block.Deque.pushFront_small_violation"
   ],
   "note": "Complete for N>=1 and histories of pushes, pops, shrink_to_fit and queries at either end (references_stable_simple_partial); false for N=0, where the first push_front is undefined (witness)."
  },
  {
   "property": "C28",
   "status": "partial",
   "theorems": [
    "Verif.Block.Deque.lifecycle_partial",
    "Verif.Block.Deque.lifecycle_programs_partial",
    "Verif.Block.Deque.careful_exact",
    "Verif.Block.Deque.clear_violation"
   ],
   "note": "False for clear() of a single-block deque of elements with destructors (witness)."
  },
  {
   "property": "C29",
   "status": "partial",
   "theorems": [
    "Verif.Block.Deque.iteration_partial",
    "Verif.Block.Deque.iteration_mixed_partial",
    "Verif.Block.Deque.iteration_exact",
    "Verif.Block.Deque.iterate_full_violation",
    "Verif.Block.Deque.moved_from_iterate_violation"
   ],
   "note": "Holds exactly unless the last block is full and has the last slot of the pointer array."
  },
  {
   "property": "C30",
   "status": "partial",
   "theorems": [
    "Verif.Block.Deque.sized_partial",
    "Verif.Block.Deque.copy_partial",
    "Verif.Block.Deque.move_partial",
    "Verif.Block.Deque.programs_partial",
    "Verif.Block.Deque.careful_exact",
    "Verif.Block.Deque.moved_calls",
    "Verif.Block.Deque.made_empty_calls",
    "Verif.Block.Deque.sized_zero_violation",
    "Verif.Block.Deque.copy_default_violation",
    "Verif.Block.Deque.moved_from_push_violation"
   ],
   "note": "False for size 0, copies of deques without memory (made_empty_calls: in every reachable state) and reuse of moved-from deques (moved_calls: exactly which calls, in every reachable state)."
  },
  {
   "property": "C31",
   "status": "partial",
   "theorems": [
    "Verif.Block.Deque.checked_access_partial",
    "Verif.Block.Deque.sized_zero_violation"
   ],
   "note": "All states reached by careful programs; false after StableBlockDeque(0) (witness)."
  },
  {
   "property": "C32",
   "status": "proved",
   "theorems": [
    "Verif.Block.Deque.slots_in_bounds",
    "Verif.Block.Deque.sequence_partial"
   ],
   "note": "Assumes std::copy works on overlapping later ranges; see pushFront_overlap_violation."
  },
  {
   "property": "C33",
   "status": "partial",
   "theorems": [
    "Verif.Mapped.Vector.history_unstable_no_removal",
    "Verif.Mapped.Vector.history_unstable_partial",
    "Verif.Mapped.Vector.history_stable_partial",
    "Verif.Mapped.Vector.find_full"
   ],
   "note": "Complete for vector storage (history_unstable_no_removal); for stable storage false for unsuccessful searches while its block slots are exactly full (witness)."
  },
  {
   "property": "C34",
   "status": "partial",
   "theorems": [
    "Verif.Mapped.Vector.removal_unstable_partial",
    "Verif.Mapped.Vector.removal_stable_partial",
    "Verif.Mapped.Vector.history_unstable_partial",
    "Verif.Mapped.Vector.history_stable_partial",
    "Verif.Mapped.Vector.alias_violation",
    "Verif.Mapped.Vector.keyless_violation",
    "Verif.Mapped.Vector.keyless_undefined"
   ],
   "note": "Holds for elements with one key; false for elements with several keys and for removeIndex of keyless elements (witnesses)."
  },
  {
   "property": "C35",
   "status": "partial",
   "theorems": [
    "Verif.Mapped.Vector.index_in_range_unstable_partial",
    "Verif.Mapped.Vector.index_in_range_stable_partial",
    "Verif.Mapped.Vector.index_never_beyond_end",
    "Verif.Mapped.Vector.stale_index_violation"
   ],
   "note": "For all histories index <= size (vector storage); index < size unless an element with several keys was removed (witness)."
  },
  {
   "property": "C36",
   "status": "partial",
   "theorems": [
    "Verif.Mapped.Vector.stable_references_partial",
    "Verif.Mapped.Vector.stable_drop_values",
    "Verif.Mapped.Vector.removal_stable_partial"
   ],
   "note": "For careful histories (C34 exclusions)."
  },
  {
   "property": "C37",
   "status": "partial",
   "theorems": [
    "Verif.Mapped.Vector.traversal_unstable_partial",
    "Verif.Mapped.Vector.traversal_stable_partial",
    "Verif.Mapped.Vector.traverse_full"
   ],
   "note": "Vector storage: after all careful histories; stable storage unless block slots are exactly full (witness)."
  },
  {
   "property": "C38",
   "status": "partial",
   "theorems": [
    "Verif.Mapped.Pointer.history_no_removal",
    "Verif.Mapped.Pointer.history_partial",
    "Verif.Mapped.Pointer.removal_partial",
    "Verif.Mapped.Pointer.alias_undefined",
    "Verif.Mapped.Pointer.alias_violation",
    "Verif.Mapped.Pointer.keyless_violation"
   ],
   "note": "Complete without remove/removeIndex and for removal of elements with one key; false for elements with several keys and removeIndex of keyless elements (witnesses)."
  },
  {
   "property": "C39",
   "status": "partial",
   "theorems": [
    "Verif.Mapped.Str.keys_own",
    "Verif.Mapped.Str.history_stable_partial",
    "Verif.Mapped.Str.history_unstable",
    "Verif.Mapped.Str.move_transparent",
    "Verif.Mapped.Str.copy_violation",
    "Verif.Mapped.Str.copy_keys",
    "Verif.Mapped.Str.keyless_violation"
   ],
   "note": "keys_own holds for all histories, moves are transparent, history_unstable is complete; false for copies and for removeIndex of keyless elements (witnesses)."
  },
  {
   "property": "C40",
   "status": "proved",
   "theorems": [
    "Verif.Mapped.Dual.insert_unstable",
    "Verif.Mapped.Dual.insert_stable",
    "Verif.Mapped.Dual.history_unstable",
    "Verif.Mapped.Dual.history_stable_partial"
   ],
   "note": "Both storages; for stable storage the histories leave out only calls that are undefined because end() of exactly full block storage is (find_full)."
  },
  {
   "property": "C41",
   "status": "proved",
   "theorems": [
    "Verif.Mapped.Dual.remove_unstable",
    "Verif.Mapped.Dual.remove_stable",
    "Verif.Mapped.Dual.find_full"
   ],
   "note": "Both storages. For exactly full stable storage the unsuccessful search is undefined (find_full)."
  },
  {
   "property": "C42",
   "status": "proved",
   "theorems": [
    "Verif.Mapped.Dual.insertOrAssign_unstable",
    "Verif.Mapped.Dual.insertOrAssign_stable"
   ],
   "note": "Both storages."
  },
  {
   "property": "C43",
   "status": "partial",
   "theorems": [
    "Verif.Mapped.DualStr.insert_stable_partial",
    "Verif.Mapped.DualStr.insert_unstable_partial",
    "Verif.Mapped.DualStr.insert_ignores_name",
    "Verif.Mapped.DualStr.insert_violated",
    "Verif.Mapped.DualStr.keys_own",
    "Verif.Mapped.DualStr.history_stable_partial",
    "Verif.Mapped.DualStr.history_unstable_partial",
    "Verif.Mapped.DualStr.remove_stable_partial",
    "Verif.Mapped.DualStr.remove_full"
   ],
   "note": "Proved for a name not in use and for both keys in use; false when the name is in use and the second term is not (insert_ignores_name holds in every such state, insert_violated is a witness). Histories leave out those insertions and removals of elements whose names exactly fill the temporary vector (remove_full)."
  },
  {
   "property": "C44",
   "status": "partial",
   "theorems": [
    "Verif.Mapped.DualPtr.history_partial",
    "Verif.Mapped.DualPtr.insert_partial",
    "Verif.Mapped.DualPtr.insert_fails",
    "Verif.Mapped.DualPtr.removal_partial",
    "Verif.Mapped.DualPtr.insert_violation",
    "Verif.Mapped.DualPtr.insert_remove_violation",
    "Verif.Mapped.DualPtr.keyless_undefined",
    "Verif.Mapped.DualPtr.keyless_violation"
   ],
   "note": "Proved when neither or both keys are in use, and for removals of elements with a key of each type; false for insert with exactly the first key in use (insert_violation holds in every such state) and for removal of elements lacking a key of one type (witnesses)."
  },
  {
   "property": "C69",
   "status": "proved",
   "theorems": [
    "Verif.MapOps.mapFind_map",
    "Verif.MapOps.mapFind_unordered"
   ],
   "note": "For every history of insertions, removals and rehashes, every comparison/hash meeting the standard's requirements; the standard containers are modelled as sorted sequence and buckets."
  },
  {
   "property": "C45",
   "status": "partial",
   "theorems": [
    "Verif.SimpleQueue.linearizable_actual",
    "Verif.SimpleQueue.linearizable_partial",
    "Verif.SimpleQueue.linearizable_noEmpty_partial",
    "Verif.SimpleQueue.linearizable_violation"
   ],
   "note": "All calls, threads and interleavings against the exact behaviour (linearizable_actual); the plain FIFO queue if pushVector is not called with an empty vector or empty() is not called; false otherwise (witness)."
  },
  {
   "property": "C46",
   "status": "proved",
   "theorems": [
    "Verif.SimpleQueue.no_deadlock",
    "Verif.SimpleQueue.no_crash",
    "Verif.SimpleQueue.own_steps_bounded"
   ],
   "note": ""
  },
  {
   "property": "C47",
   "status": "proved",
   "theorems": [
    "Verif.SimpleQueue.race_free",
    "Verif.SimpleQueue.other_steps_independent"
   ],
   "note": ""
  },
  {
   "property": "C48",
   "status": "proved",
   "theorems": [
    "Verif.SimpleQueue.conservation",
    "Verif.SimpleQueue.conservation_inFlight"
   ],
   "note": ""
  },
  {
   "property": "C49",
   "status": "partial",
   "theorems": [
    "Verif.SimpleQueue.move_target",
    "Verif.SimpleQueue.move_source_partial",
    "Verif.SimpleQueue.move_violation"
   ],
   "note": "Target as claimed; the source behaves as an empty queue except that empty() keeps its old answer until the next pop, clear or insertion (witness)."
  },
  {
   "property": "C60",
   "status": "proved",
   "theorems": [
    "Verif.AirLock.linearizable",
    "Verif.AirLock.exchange"
   ],
   "note": ""
  },
  {
   "property": "C61",
   "status": "proved",
   "theorems": [
    "Verif.AirLock.no_lost_wakeup",
    "Verif.AirLock.no_lost_wakeup_quiescent",
    "Verif.AirLock.awake_loader_loads"
   ],
   "note": ""
  },
  {
   "property": "C62",
   "status": "proved",
   "theorems": [
    "Verif.AirLock.no_deadlock",
    "Verif.AirLock.race_free"
   ],
   "note": ""
  },
  {
   "property": "C50",
   "status": "proved",
   "theorems": [
    "Verif.BlockingQueue.linearizable",
    "Verif.BlockingQueue.conservation",
    "Verif.BlockingQueue.linearizable_observing_partial"
   ],
   "note": "linearizable and conservation cover the calls named by the property; linearizable_observing_partial adds empty()==true and try_peek of an element."
  },
  {
   "property": "C51",
   "status": "partial",
   "theorems": [
    "Verif.BlockingQueue.no_lost_wakeup_partial",
    "Verif.BlockingQueue.no_lost_wakeup_atRest_partial",
    "Verif.BlockingQueue.notification_arrives",
    "Verif.BlockingQueue.wakeup_violation"
   ],
   "note": "Proved if one thread makes all the calls that may wait, with any number of other threads; false with two waiting consumers (witness); insertions that throw are excluded, see C78."
  },
  {
   "property": "C52",
   "status": "partial",
   "theorems": [
    "Verif.BlockingQueue.sequential",
    "Verif.BlockingQueue.sequential_state",
    "Verif.BlockingQueue.size_partial",
    "Verif.BlockingQueue.linearizable_observing_partial",
    "Verif.BlockingQueue.size_violation",
    "Verif.BlockingQueue.empty_violation",
    "Verif.BlockingQueue.empty_violation_atRest"
   ],
   "note": "Proved for calls made one at a time, none of which throws, and size() with a single producer and empty()==true under all interleavings; false for size() with two producers and for empty()==false (witnesses)."
  },
  {
   "property": "C53",
   "status": "proved",
   "theorems": [
    "Verif.BlockingQueue.sequential",
    "Verif.BlockingQueue.sequential_state",
    "Verif.BlockingQueue.peek_violation"
   ],
   "note": "For all histories of calls made one at a time, none of which throws, as the property says. With overlapping calls, or a popOrCall whose function pushes, try_peek can miss elements (peek_violation)."
  },
  {
   "property": "C54",
   "status": "proved",
   "theorems": [
    "Verif.BlockingQueue.no_deadlock",
    "Verif.BlockingQueue.no_crash",
    "Verif.BlockingQueue.own_steps_bounded",
    "Verif.BlockingQueue.race_free",
    "Verif.BlockingQueue.other_steps_independent"
   ],
   "note": "For new, used, moved-to and moved-from objects."
  },
  {
   "property": "C55",
   "status": "partial",
   "theorems": [
    "Verif.BlockingQueue.move_target_partial",
    "Verif.BlockingQueue.move_source",
    "Verif.BlockingQueue.move_target_sequential_partial",
    "Verif.BlockingQueue.move_violation",
    "Verif.BlockingQueue.move_source_violation"
   ],
   "note": "Contents and behaviour transferred for every source; empty() of the target right if the source was used one call at a time without exceptions; false in general (witness)."
  },
  {
   "property": "C56",
   "status": "proved",
   "theorems": [
    "Verif.BlockingPriorityQueue.linearizable",
    "Verif.BlockingPriorityQueue.conservation",
    "Verif.BlockingPriorityQueue.linearizable_observing_partial"
   ],
   "note": "linearizable and conservation cover the calls named by the property; linearizable_observing_partial adds empty()==true and try_peek of an element."
  },
  {
   "property": "C57",
   "status": "partial",
   "theorems": [
    "Verif.BlockingPriorityQueue.no_lost_wakeup_partial",
    "Verif.BlockingPriorityQueue.no_lost_wakeup_atRest_partial",
    "Verif.BlockingPriorityQueue.notification_arrives",
    "Verif.BlockingPriorityQueue.wakeup_violation"
   ],
   "note": "Proved if one thread makes all the calls that take elements out; false with a second thread using try_pop (witness); insertions that throw are excluded, see C79."
  },
  {
   "property": "C58",
   "status": "partial",
   "theorems": [
    "Verif.BlockingPriorityQueue.sequential_partial",
    "Verif.BlockingPriorityQueue.linearizable_observing_partial",
    "Verif.BlockingPriorityQueue.empty_violation",
    "Verif.BlockingPriorityQueue.peek_violation"
   ],
   "note": "Proved for calls made one at a time that do not use the priority channel and do not throw; false with it (witnesses)."
  },
  {
   "property": "C59",
   "status": "proved",
   "theorems": [
    "Verif.BlockingPriorityQueue.no_deadlock",
    "Verif.BlockingPriorityQueue.no_crash",
    "Verif.BlockingPriorityQueue.own_steps_bounded",
    "Verif.BlockingPriorityQueue.race_free",
    "Verif.BlockingPriorityQueue.other_steps_independent"
   ],
   "note": "For new, used, moved-to and moved-from objects."
  },
  {
   "property": "C71",
   "status": "partial",
   "theorems": [
    "Verif.BlockingPriorityQueue.move_target_partial",
    "Verif.BlockingPriorityQueue.move_source",
    "Verif.BlockingPriorityQueue.move_violation"
   ],
   "note": "Contents and behaviour transferred for every source; false for empty() of the target (witness)."
  },
  {
   "property": "C68",
   "status": "proved",
   "theorems": [
    "Verif.WorkBlock.history",
    "Verif.WorkBlock.history_task",
    "Verif.WorkBlock.future_of_execution",
    "Verif.WorkBlock.future_stable",
    "Verif.WorkBlock.default_throws",
    "Verif.WorkBlock.ofTask_breaks_future",
    "Verif.WorkBlock.updateTask_retrieved",
    "Verif.WorkBlock.updateTask_spent",
    "Verif.WorkBlock.void_drops_exceptions",
    "Verif.WorkBlock.moved_from",
    "Verif.WorkBlock.moveAssign_breaks"
   ],
   "note": "For blocks made from a function or packaged_task; the last theorems say what happens outside the property: default construction always throws, tasks whose future was taken or that have run, moved blocks."
  },
  {
   "property": "C63",
   "status": "proved",
   "theorems": [
    "Verif.WorkQueue.Full.refines",
    "Verif.WorkQueue.Full.at_most_once",
    "Verif.WorkQueue.Full.exactly_once",
    "Verif.WorkQueue.at_most_once",
    "Verif.WorkQueue.exactly_once",
    "Verif.WorkQueue.zero_workers",
    "Verif.WorkQueue.twice_violation"
   ],
   "note": "For any number of workers and all interleavings; for blocks submitted once (twice_violation: a block submitted twice is run twice)."
  },
  {
   "property": "C64",
   "status": "partial",
   "theorems": [
    "Verif.WorkQueue.Full.alone_history",
    "Verif.WorkQueue.fifo",
    "Verif.WorkQueue.high_first",
    "Verif.WorkQueue.alone_history",
    "Verif.WorkQueue.alone_exists_history",
    "Verif.WorkQueue.fetch_by_itself",
    "Verif.WorkQueue.low_turn_partial",
    "Verif.WorkQueue.medium_first_partial",
    "Verif.WorkQueue.turns_overlap_violation"
   ],
   "note": "FIFO and high-first under all interleavings; the turns of medium and low priority for fetches that do not overlap (otherwise they fail, see turns_overlap_violation; what remains is C118) and for histories of less than 2^31 fetches (the int counter overflows, see starvation_violation)."
  },
  {
   "property": "C65",
   "status": "partial",
   "theorems": [
    "Verif.WorkQueue.no_starvation_partial",
    "Verif.WorkQueue.starvation_violation"
   ],
   "note": "Proved for histories of less than 2^31 fetches; false in general (the counter overflows; witness execution with 2^31 fetches)."
  },
  {
   "property": "C66",
   "status": "partial",
   "theorems": [
    "Verif.WorkQueue.Full.close_terminates_partial",
    "Verif.WorkQueue.Full.close_bounded",
    "Verif.WorkQueue.Full.closed_exited_partial",
    "Verif.WorkQueue.close_terminates_partial",
    "Verif.WorkQueue.close_bounded",
    "Verif.WorkQueue.closed_exited_partial",
    "Verif.WorkQueue.closed_by_one",
    "Verif.WorkQueue.two_closers_violation"
   ],
   "note": "If closing calls do not overlap: bounded number of further steps, no deadlock, all workers exit and all calls return, without relying on timeouts. False if two clients close at the same time (witness deadlock). That no block is run twice is at_most_once of C63."
  },
  {
   "property": "C67",
   "status": "partial",
   "theorems": [
    "Verif.WorkQueue.add_wakes_partial",
    "Verif.WorkQueue.vector_wakes",
    "Verif.WorkQueue.vector_wakes_alone",
    "Verif.WorkQueue.timeout_fetches_partial",
    "Verif.WorkQueue.lost_wakeup_violation",
    "Verif.WorkQueue.not_notified_violation"
   ],
   "note": "False in general: a notification can be lost between the test for emptiness and the wait, and is not sent when the queue holds more blocks than workers (witnesses). Proved: an addition that is not interrupted wakes a waiting worker if the queue is short; adding a vector wakes every waiting worker under every interleaving; a worker woken by its timeout fetches and executes the next block."
  },
  {
   "property": "C72",
   "status": "partial",
   "theorems": [
    "Verif.WorkQueue.workerCount_alone",
    "Verif.WorkQueue.isEmpty_alone_partial",
    "Verif.WorkQueue.numBlock_alone_partial",
    "Verif.WorkQueue.isEmpty_violation",
    "Verif.WorkQueue.isEmpty_flag_violation"
   ],
   "note": "Exact when not interrupted (isEmpty: if no empty vector was added); false for isEmpty under concurrency and after adding an empty vector (witnesses)."
  },
  {
   "property": "C73",
   "status": "proved",
   "theorems": [
    "Verif.WorkQueue.Full.closed_exited",
    "Verif.WorkQueue.Full.closed_silent",
    "Verif.WorkQueue.Full.closed_silent_partial",
    "Verif.WorkQueue.closed_exited",
    "Verif.WorkQueue.closed_silent",
    "Verif.WorkQueue.closed_silent_partial"
   ],
   "note": "Proved for closeWorkerQueue with any number of closing clients; closed_silent_partial is the same for the destructor if closing calls do not overlap. Testing joinable() and joining a thread is one step of the model; with overlapping closing calls these accesses race, see C105."
  },
  {
   "property": "C74",
   "status": "partial",
   "theorems": [
    "Verif.Mapped.Several.mapped_unstable_partial",
    "Verif.Mapped.Several.mapped_stable_partial",
    "Verif.Mapped.Several.dual_unstable",
    "Verif.Mapped.Several.careful_dual_unstable",
    "Verif.Mapped.Several.dual_stable_partial",
    "Verif.Mapped.Several.copy_emptied_violation",
    "Verif.Mapped.Several.moved_from_violation",
    "Verif.Mapped.Several.moved_from_vector_violation"
   ],
   "note": "DualMappedVector with vector storage as claimed; with stable storage false for copies of emptied containers and for copy assignment to moved-from ones (witnesses); MappedVector inherits the exclusions of C33."
  },
  {
   "property": "C75",
   "status": "partial",
   "theorems": [
    "Verif.Mapped.SeveralPtr.mapped_partial",
    "Verif.Mapped.SeveralPtr.mapped_no_removal",
    "Verif.Mapped.SeveralPtr.dual_partial",
    "Verif.Mapped.SeveralPtr.Owned.none_left",
    "Verif.Mapped.SeveralPtr.moved_from_violation"
   ],
   "note": "As claimed for every program in which no search term is looked up in a moved-from container before it is cleared or assigned to (witness), apart from the removals excluded in C38 and C44; without single removals nothing else is excluded."
  },
  {
   "property": "C76",
   "status": "partial",
   "theorems": [
    "Verif.Block.Vector.range_assign_partial",
    "Verif.Block.Vector.range_move_partial",
    "Verif.Block.Vector.programs_partial",
    "Verif.Block.Vector.lifecycle_copies_partial",
    "Verif.Block.Vector.range_full_undefined",
    "Verif.Block.Deque.range_assign_partial",
    "Verif.Block.Deque.range_move_partial",
    "Verif.Block.Deque.programs_partial",
    "Verif.Block.Deque.lifecycle_programs_partial",
    "Verif.Block.Deque.range_full_undefined",
    "Verif.Block.Mixed.range_assign_partial",
    "Verif.Block.Mixed.range_move_partial",
    "Verif.Block.Mixed.programs_partial",
    "Verif.Block.Mixed.lifecycle_partial"
   ],
   "note": "Proved for ranges between vectors and deques in either direction, with equal or different block sizes, and for ranges of the container itself, in programs with any number of both, except where the end of the range, or of a deque assigned to, cannot be formed because the block slots are exactly full (undefined, theorems) and moved-from containers. All containers of a program have the same element type."
  },
  {
   "property": "C77",
   "status": "proved",
   "theorems": [
    "Verif.SimpleQueue.throw_no_effect",
    "Verif.SimpleQueue.throw_result",
    "Verif.SimpleQueue.throw_releases_locks",
    "Verif.SimpleQueue.linearizable_actual",
    "Verif.SimpleQueue.no_deadlock",
    "Verif.SimpleQueue.own_steps_bounded"
   ],
   "note": "For all calls, threads and interleavings, given that the std::vector functions have no effect when they throw."
  },
  {
   "property": "C78",
   "status": "partial",
   "theorems": [
    "Verif.BlockingQueue.throw_no_effect_partial",
    "Verif.BlockingQueue.throw_result",
    "Verif.BlockingQueue.throw_releases_locks",
    "Verif.BlockingQueue.linearizable",
    "Verif.BlockingQueue.no_deadlock",
    "Verif.BlockingQueue.own_steps_bounded",
    "Verif.BlockingQueue.throw_empty_violation",
    "Verif.BlockingQueue.throw_peek_violation",
    "Verif.BlockingQueue.throw_wakeup_violation"
   ],
   "note": "Contents, order, locks and progress are as claimed for all calls, threads and interleavings; empty(), try_peek and the wake-up of a waiting consumer are wrong after an insertion into an empty queue that throws (witnesses)."
  },
  {
   "property": "C79",
   "status": "partial",
   "theorems": [
    "Verif.BlockingPriorityQueue.throw_no_effect_partial",
    "Verif.BlockingPriorityQueue.throw_result",
    "Verif.BlockingPriorityQueue.throw_releases_locks",
    "Verif.BlockingPriorityQueue.linearizable",
    "Verif.BlockingPriorityQueue.no_deadlock",
    "Verif.BlockingPriorityQueue.own_steps_bounded",
    "Verif.BlockingPriorityQueue.throw_empty_violation",
    "Verif.BlockingPriorityQueue.throw_peek_violation",
    "Verif.BlockingPriorityQueue.throw_wakeup_violation"
   ],
   "note": "As C78."
  },
  {
   "property": "C80",
   "status": "partial",
   "theorems": [
    "Verif.Block.Vector.no_memory_partial",
    "Verif.Block.Vector.no_memory_iff",
    "Verif.Block.Vector.after_failures_partial",
    "Verif.Block.Vector.failures_no_leak_partial",
    "Verif.Block.Vector.no_memory_new_violation"
   ],
   "note": "Proved for every vector that has reserved memory; false for the first insertion into a vector without memory if its first block cannot be allocated: destroying or clearing the vector is then undefined (theorem for all states)."
  },
  {
   "property": "C81",
   "status": "partial",
   "theorems": [
    "Verif.Block.Vector.element_throw_partial",
    "Verif.Block.Vector.element_throw_violation"
   ],
   "note": "Proved: size, empty, front, at, indexing and addresses. False for every vector in every reachable state: destruction, clear, back, pop_back, iteration and the element inserted next."
  },
  {
   "property": "C82",
   "status": "partial",
   "theorems": [
    "Verif.Block.Vector.assign_throw_partial",
    "Verif.Block.Vector.after_failures_partial"
   ],
   "note": "Proved for exceptions while existing elements are assigned to; while elements are appended C81 applies."
  },
  {
   "property": "C83",
   "status": "partial",
   "theorems": [
    "Verif.Block.Deque.no_memory_partial",
    "Verif.Block.Deque.no_memory_iff_partial",
    "Verif.Block.Deque.after_failures_partial",
    "Verif.Block.Deque.failures_no_leak_partial",
    "Verif.Block.Deque.no_memory_new_violation"
   ],
   "note": "Proved for every deque that owns memory and insertions that are not excluded in C26; false for the first insertion into a deque without memory if its first block cannot be allocated: destroying it or inserting into it is then undefined (theorem for all states)."
  },
  {
   "property": "C84",
   "status": "partial",
   "theorems": [
    "Verif.Block.Deque.element_throw_partial",
    "Verif.Block.Deque.element_throw_violation",
    "Verif.Block.Deque.element_throw_front_violation"
   ],
   "note": "Proved for insertions at the back: size, empty, front, at, indexing and addresses. False for every deque in every reachable state: back, and with non-trivial destructors destruction, clear and pop_back; at the front, moreover, all indices are shifted."
  },
  {
   "property": "C85",
   "status": "partial",
   "theorems": [
    "Verif.Block.Deque.assign_throw_partial",
    "Verif.Block.Deque.after_failures_partial"
   ],
   "note": "Proved for exceptions while existing elements are assigned to, if end() can be formed; while elements are appended C84 applies."
  },
  {
   "property": "C86",
   "status": "partial",
   "theorems": [
    "Verif.Mapped.Vector.no_effect_partial",
    "Verif.Mapped.Vector.no_effect_runs_partial",
    "Verif.Mapped.Vector.after_failures_unstable_partial",
    "Verif.Mapped.Vector.after_failures_stable_partial",
    "Verif.Mapped.Vector.map_throw_violation",
    "Verif.Mapped.Vector.element_throw_violation"
   ],
   "note": "Proved if what throws is the storage (unless that breaks it, C80, C81), the construction of a value to assign, or adding a search term; false in every state if the search term of an insertion cannot be stored (an element without search term remains), and with stable storage if the element's constructor throws."
  },
  {
   "property": "C87",
   "status": "partial",
   "theorems": [
    "Verif.Mapped.Vector.failure_unstable",
    "Verif.Mapped.Vector.tolerated_unstable",
    "Verif.Mapped.Vector.tolerated_stable",
    "Verif.Mapped.Vector.failure_stable_partial",
    "Verif.Mapped.Vector.after_failures_unstable_partial",
    "Verif.Mapped.Vector.after_failures_stable_partial",
    "Verif.Mapped.Vector.element_throw_violation"
   ],
   "note": "With vector storage every failure is covered, with stable storage those that do not break the storage (C80, C81; theorem for all states). Later programs are careful ones as in C33."
  },
  {
   "property": "C88",
   "status": "partial",
   "theorems": [
    "Verif.Mapped.Dual.no_effect_partial",
    "Verif.Mapped.Dual.no_effect_runs_partial",
    "Verif.Mapped.Dual.after_failures_unstable",
    "Verif.Mapped.Dual.after_failures_stable_partial",
    "Verif.Mapped.Dual.map_throw_violation",
    "Verif.Mapped.Dual.map2_throw_violation",
    "Verif.Mapped.Dual.assign_throw_violation",
    "Verif.Mapped.Dual.element_throw_violation"
   ],
   "note": "As C86; moreover, if only the second search term cannot be stored, the element is there under the first, or the value of the element that had the first search term has been replaced (theorems for all states)."
  },
  {
   "property": "C89",
   "status": "partial",
   "theorems": [
    "Verif.Mapped.Dual.failure_unstable",
    "Verif.Mapped.Dual.tolerated_unstable",
    "Verif.Mapped.Dual.tolerated_stable",
    "Verif.Mapped.Dual.failure_stable_partial",
    "Verif.Mapped.Dual.after_failures_unstable",
    "Verif.Mapped.Dual.after_failures_stable_partial",
    "Verif.Mapped.Dual.element_throw_violation"
   ],
   "note": "With vector storage as claimed; with stable storage for failures that do not break the storage (C80, C81; theorem for all states) and the careful programs of C40."
  },
  {
   "property": "C90",
   "status": "partial",
   "theorems": [
    "Verif.Mapped.Vector.remove_throw_stable_partial",
    "Verif.Mapped.Vector.remove_throw_unstable_partial",
    "Verif.Mapped.Vector.remove_throw_violation",
    "Verif.Mapped.Dual.remove_throw_stable_partial",
    "Verif.Mapped.Dual.remove_throw_unstable_partial",
    "Verif.Mapped.Dual.remove_throw_violation"
   ],
   "note": "With stable storage the call has no effect unless the element is the last; with vector storage the elements before the removed one are found, but the removed element's search terms then find the element that followed it (theorems for all states)."
  },
  {
   "property": "C91",
   "status": "partial",
   "theorems": [
    "Verif.Mapped.Pointer.failure_partial",
    "Verif.Mapped.Pointer.after_failures_partial",
    "Verif.Mapped.Pointer.failures_no_leak"
   ],
   "note": "Proved for all histories of careful calls (as in C38) with any number of exceptions; partial only because careless removals are excluded."
  },
  {
   "property": "C92",
   "status": "partial",
   "theorems": [
    "Verif.Mapped.Pointer.no_effect_partial",
    "Verif.Mapped.Pointer.no_effect_client_partial",
    "Verif.Mapped.Pointer.pointer_kept",
    "Verif.Mapped.Pointer.map_throw_violation"
   ],
   "note": "Proved if the object cannot be made, the storage cannot grow or a search term cannot be added; false in every state if the search term of an insertion cannot be stored: the object stays as an element without search term and the caller's pointer has been moved from."
  },
  {
   "property": "C93",
   "status": "partial",
   "theorems": [
    "Verif.Mapped.DualPtr.failure_partial",
    "Verif.Mapped.DualPtr.after_failures_partial",
    "Verif.Mapped.DualPtr.failures_no_leak"
   ],
   "note": "Proved for all histories of careful calls (as in C44) with any number of exceptions; partial only because careless insertions and removals are excluded."
  },
  {
   "property": "C94",
   "status": "partial",
   "theorems": [
    "Verif.Mapped.DualPtr.no_effect_partial",
    "Verif.Mapped.DualPtr.no_effect_client_partial",
    "Verif.Mapped.DualPtr.pointer_kept",
    "Verif.Mapped.DualPtr.map1_throw_violation",
    "Verif.Mapped.DualPtr.map2_throw_violation"
   ],
   "note": "Proved if the object cannot be made or the storage cannot grow; false in every state if a search term cannot be stored: the object stays, without search term or with the first only, which insert_or_assign may have taken from another element."
  },
  {
   "property": "C95",
   "status": "partial",
   "theorems": [
    "Verif.Mapped.Pointer.remove_throw_partial",
    "Verif.Mapped.Pointer.remove_throw_violation",
    "Verif.Mapped.DualPtr.remove_throw_partial",
    "Verif.Mapped.DualPtr.remove_throw_violation",
    "Verif.Mapped.DualPtr.remove_key_throw_violation"
   ],
   "note": "Exactly the removed object is destroyed and the elements before it are found as before; but search terms of the removed object find the one that followed it (theorems for all states)."
  },
  {
   "property": "C96",
   "status": "partial",
   "theorems": [
    "Verif.Mapped.Str.no_effect_partial",
    "Verif.Mapped.Str.no_effect_runs_partial",
    "Verif.Mapped.Str.term_throw_violation",
    "Verif.Mapped.Str.name_throw_violation",
    "Verif.Mapped.Str.element_throw_violation"
   ],
   "note": "Proved if emplace_back of the elements or the construction of the value to be assigned throws; false in every state if the name or the map entry cannot be stored: the element stays, without search term."
  },
  {
   "property": "C97",
   "status": "partial",
   "theorems": [
    "Verif.Mapped.Str.failure_unstable_partial",
    "Verif.Mapped.Str.failure_stable_partial",
    "Verif.Mapped.Str.after_failures_unstable_partial",
    "Verif.Mapped.Str.after_failures_stable_partial",
    "Verif.Mapped.Str.after_failures_keys_own",
    "Verif.Mapped.Str.after_failures_destroy_partial",
    "Verif.Mapped.Str.after_failures_destroy_elements",
    "Verif.Mapped.Str.name_throw_violation",
    "Verif.Mapped.Str.first_name_violation",
    "Verif.Mapped.Str.element_throw_violation"
   ],
   "note": "Proved for all histories (vector storage) or careful histories (stable storage) with any number of exceptions, except that the container cannot be destroyed if copying a search term throws or there is no memory for the first one and, with stable storage, if the constructor of an element throws (theorems for all states)."
  },
  {
   "property": "C98",
   "status": "partial",
   "theorems": [
    "Verif.Mapped.DualStr.no_effect_partial",
    "Verif.Mapped.DualStr.no_effect_runs_partial",
    "Verif.Mapped.DualStr.term_throw_violation",
    "Verif.Mapped.DualStr.map2_throw_violation",
    "Verif.Mapped.DualStr.assign_throw_violation"
   ],
   "note": "Proved if emplace_back of the elements or the construction of the value to be assigned throws, and for terms added to existing elements; false in every state if a name or a map entry cannot be stored (the element or the first term stays) or an assignment throws."
  },
  {
   "property": "C99",
   "status": "partial",
   "theorems": [
    "Verif.Mapped.DualStr.failure_unstable_partial",
    "Verif.Mapped.DualStr.failure_stable_partial",
    "Verif.Mapped.DualStr.after_failures_unstable_partial",
    "Verif.Mapped.DualStr.after_failures_stable_partial",
    "Verif.Mapped.DualStr.after_failures_keys_own",
    "Verif.Mapped.DualStr.after_failures_destroy_partial",
    "Verif.Mapped.DualStr.after_failures_destroy_elements",
    "Verif.Mapped.DualStr.name_throw_violation",
    "Verif.Mapped.DualStr.first_name_violation",
    "Verif.Mapped.DualStr.element_throw_violation"
   ],
   "note": "Proved for careful histories with any number of exceptions, except that the container cannot be destroyed if copying a search term throws or there is no memory for the first one and, with stable storage, if the constructor of an element throws (theorems for all states)."
  },
  {
   "property": "C100",
   "status": "partial",
   "theorems": [
    "Verif.Mapped.DualStr.remove_throw_partial",
    "Verif.Mapped.DualStr.remove_copy_violation",
    "Verif.Mapped.DualStr.remove_memory_violation",
    "Verif.Mapped.DualStr.remove_last_violation"
   ],
   "note": "Proved for elements other than the last if the exception gets out of the call; false otherwise: undefined in every state if the copy of a term throws or the first block cannot be allocated, and the terms of the last element outlive it."
  },
  {
   "property": "C101",
   "status": "partial",
   "theorems": [
    "Verif.AirLock.throw_no_effect_partial",
    "Verif.AirLock.throw_result",
    "Verif.AirLock.throw_releases_lock",
    "Verif.AirLock.torn_violation"
   ],
   "note": "Proved if an object that cannot be moved keeps its value; false in every state with a full slot if it loses it."
  },
  {
   "property": "C102",
   "status": "partial",
   "theorems": [
    "Verif.AirLock.throw_wakeup_partial",
    "Verif.AirLock.throw_wakeup_quiescent_partial",
    "Verif.AirLock.throw_lost_wakeup_violation",
    "Verif.AirLock.throw_lost_wakeup_stays"
   ],
   "note": "Proved for all executions in which no load throws after having waited; false otherwise: the wake-up is used up, and a sleeping loader stays asleep until the next try_unload."
  },
  {
   "property": "C103",
   "status": "partial",
   "theorems": [
    "Verif.BlockingQueue.throw_no_effect_partial",
    "Verif.BlockingQueue.pop_throw_no_effect_partial",
    "Verif.BlockingQueue.pop_throw_result",
    "Verif.BlockingQueue.throw_conservation",
    "Verif.BlockingQueue.throw_releases_locks",
    "Verif.BlockingQueue.no_deadlock",
    "Verif.BlockingQueue.own_steps_bounded",
    "Verif.BlockingQueue.no_lost_wakeup_partial",
    "Verif.BlockingQueue.pop_throw_violation"
   ],
   "note": "All calls, threads and interleavings, except pops that throw when they move the element, already removed, into the result: these lose it (witness); throw_conservation says that this is all that is lost. Of empty() and try_peek the results true and an element are covered (the others are wrong without exceptions, too, C52, C53)."
  },
  {
   "property": "C104",
   "status": "partial",
   "theorems": [
    "Verif.BlockingPriorityQueue.throw_no_effect_partial",
    "Verif.BlockingPriorityQueue.pop_throw_no_effect_partial",
    "Verif.BlockingPriorityQueue.pop_throw_result",
    "Verif.BlockingPriorityQueue.throw_conservation",
    "Verif.BlockingPriorityQueue.throw_releases_locks",
    "Verif.BlockingPriorityQueue.no_deadlock",
    "Verif.BlockingPriorityQueue.own_steps_bounded",
    "Verif.BlockingPriorityQueue.no_lost_wakeup_partial",
    "Verif.BlockingPriorityQueue.pop_throw_violation"
   ],
   "note": "As C103."
  },
  {
   "property": "C105",
   "status": "partial",
   "theorems": [
    "Verif.WorkQueue.Full.race_free_partial",
    "Verif.WorkQueue.Full.only_polls_race",
    "Verif.WorkQueue.race_free_partial",
    "Verif.WorkQueue.only_polls_race",
    "Verif.WorkQueue.flag_frame",
    "Verif.WorkQueue.poll_race",
    "Verif.WorkQueue.twice_race",
    "Verif.WorkQueue.close_race"
   ],
   "note": "Proved for blocks added at most once for which isFinished is not called while they are in the queue, and closing calls that do not overlap; false otherwise (witnesses). only_polls_race says that a call of isFinished is the only thing that can race on a block added once."
  },
  {
   "property": "C106",
   "status": "partial",
   "theorems": [
    "Verif.WorkQueue.Full.finished_answer_partial",
    "Verif.WorkQueue.finished_answer_partial",
    "Verif.WorkQueue.finished_stays",
    "Verif.WorkQueue.finished_violation"
   ],
   "note": "True is always right, and stays; false is right unless the thread that has run the function has not yet set the flag (witness)."
  },
  {
   "property": "C107",
   "status": "proved",
   "theorems": [
    "Verif.Block.Vector.arrays_no_double_delete",
    "Verif.Block.Vector.arrays_owned",
    "Verif.Block.Vector.arrays_no_leak",
    "Verif.Block.Vector.arrays_faithful",
    "Verif.Block.Vector.careful_arrays"
   ],
   "note": "For every program (declaring no name twice) that has no other undefined behaviour in the model; careful_arrays adds that the programs of C17-C21 are such programs."
  },
  {
   "property": "C108",
   "status": "proved",
   "theorems": [
    "Verif.Block.Deque.arrays_no_double_delete",
    "Verif.Block.Deque.arrays_owned",
    "Verif.Block.Deque.arrays_no_leak",
    "Verif.Block.Deque.arrays_faithful",
    "Verif.Block.Deque.careful_arrays"
   ],
   "note": "For every program (declaring no name twice) that has no other undefined behaviour in the model; careful_arrays adds that the programs of C26-C30 are such programs."
  },
  {
   "property": "C109",
   "status": "partial",
   "theorems": [
    "Verif.BlockingQueue.waits",
    "Verif.BlockingQueue.timeout_elapsed",
    "Verif.BlockingQueue.function_unlocked",
    "Verif.BlockingQueue.function_fills_partial",
    "Verif.BlockingQueue.function_fills_violation"
   ],
   "note": "When the calls wait and call the function: for all executions. That popOrCall takes what the function put into the queue without waiting: if all calls that may wait are made by one thread and no insertion throws; with two consumers it fails (witness)."
  },
  {
   "property": "C110",
   "status": "partial",
   "theorems": [
    "Verif.BlockingPriorityQueue.waits",
    "Verif.BlockingPriorityQueue.timeout_elapsed",
    "Verif.BlockingPriorityQueue.function_unlocked",
    "Verif.BlockingPriorityQueue.function_fills_partial",
    "Verif.BlockingPriorityQueue.function_fills_violation"
   ],
   "note": "As C109; one thread makes all pops."
  },
  {
   "property": "C111",
   "status": "partial",
   "theorems": [
    "Verif.StackBuffer.memory_session_partial",
    "Verif.StackBuffer.memory_owned",
    "Verif.StackBuffer.no_leak_partial",
    "Verif.StackBuffer.resize_throws_unchanged",
    "Verif.StackBuffer.copy_assign_fails",
    "Verif.StackBuffer.copy_assign_violation",
    "Verif.StackBuffer.leak_violation"
   ],
   "note": "All sessions with any calls failing for lack of memory, except copy assignments that get no memory (shown to alias) and reusing the source of a move assignment (C15). No leak unless a buffer of size 0 is constructed (witness)."
  },
  {
   "property": "C112",
   "status": "partial",
   "theorems": [
    "Verif.StackBuffer.aligned_partial",
    "Verif.StackBuffer.misaligned_push",
    "Verif.StackBuffer.misaligned_iff",
    "Verif.StackBuffer.owner_aligned_iff",
    "Verif.StackBuffer.misaligned_violation"
   ],
   "note": "Exactly characterised: holds if the memory ends at a multiple of 4, fails for every accepted push otherwise."
  },
  {
   "property": "C113",
   "status": "partial",
   "theorems": [
    "Verif.CircularBuffer.memory_session_partial",
    "Verif.CircularBuffer.memory_owned",
    "Verif.CircularBuffer.no_leak_partial",
    "Verif.CircularBuffer.resize_throws_unchanged",
    "Verif.CircularBuffer.copy_assign_fails",
    "Verif.CircularBuffer.copy_assign_violation",
    "Verif.CircularBuffer.leak_violation",
    "Verif.CircularBuffer.copy_of_default_deletes_twice"
   ],
   "note": "All sessions of careful clients (C06) with any calls failing for lack of memory, except copy assignments that get no memory (shown to alias) and copies of buffers without memory (double delete). No leak unless a buffer of size 0 is constructed (witness)."
  },
  {
   "property": "C114",
   "status": "proved",
   "theorems": [
    "Verif.CircularBuffer.push_safe_iff",
    "Verif.CircularBuffer.resize_safe_iff",
    "Verif.CircularBuffer.fifo_exact_partial",
    "Verif.CircularBuffer.margin_never_overfills"
   ],
   "note": "If and only if, for every state reached without unsafe calls."
  },
  {
   "property": "C115",
   "status": "proved",
   "theorems": [
    "Verif.WorkQueue.Throw.failures_refine",
    "Verif.WorkQueue.Throw.at_most_once",
    "Verif.WorkQueue.Throw.exactly_once"
   ],
   "note": "Allocations of addWorkBlock (and closeWorkerQueue) may fail at any point."
  },
  {
   "property": "C116",
   "status": "partial",
   "theorems": [
    "Verif.WorkQueue.Throw.failed_halt",
    "Verif.WorkQueue.Throw.failed_bounded",
    "Verif.WorkQueue.Throw.failed_exits",
    "Verif.WorkQueue.Throw.second_close_succeeds_partial",
    "Verif.WorkQueue.Throw.destroy_after_failure",
    "Verif.WorkQueue.Throw.second_close_waits",
    "Verif.WorkQueue.Throw.second_close_violation",
    "Verif.WorkQueue.Throw.destroy_violation",
    "Verif.WorkQueue.Throw.destroy_oom_violation"
   ],
   "note": "Proved: the workers end, and after that closing again and destroying work. Violated: destroying without closing again ends the program; closing again too early never returns."
  },
  {
   "property": "C117",
   "status": "partial",
   "theorems": [
    "Verif.WorkQueue.Throw.construct_ok",
    "Verif.WorkQueue.Throw.construct_throws_partial",
    "Verif.WorkQueue.Throw.construct_terminates",
    "Verif.WorkQueue.Throw.construct_violation"
   ],
   "note": "Exact conditions of success, exception and end of the program. Violated if a thread other than the first cannot be started."
  },
  {
   "property": "C118",
   "status": "partial",
   "theorems": [
    "Verif.WorkQueue.low_share_partial",
    "Verif.WorkQueue.low_share_idle_partial",
    "Verif.WorkQueue.low_not_starved_partial",
    "Verif.WorkQueue.turns_overlap_violation"
   ],
   "note": "Proved under every interleaving if fewer than 2^31 medium priority blocks were taken before (the int counter overflows, see starvation_violation of C65). If a fetch is under way at the start, each thread may contribute R + T more. turns_overlap_violation: the exact turns of C64 do not hold when fetches overlap."
  },
  {
   "property": "C119",
   "status": "proved",
   "theorems": [
    "Verif.WorkQueue.medium_share"
   ],
   "note": "Every interleaving, no condition on overflow."
  },
  {
   "property": "C120",
   "status": "partial",
   "theorems": [
    "Verif.WorkQueue.worker_progress",
    "Verif.WorkQueue.high_waits",
    "Verif.WorkQueue.medium_waits",
    "Verif.WorkQueue.low_waits_partial"
   ],
   "note": "High and medium priority as claimed; low priority if fewer than 2^31 medium priority blocks were taken before (the counter overflows, starvation_violation of C65)."
  },
  {
   "property": "C121",
   "status": "proved",
   "theorems": [
    "Verif.WorkQueue.high_handled",
    "Verif.WorkQueue.medium_handled",
    "Verif.WorkQueue.low_handled",
    "Verif.WorkQueue.all_executed",
    "Verif.WorkQueue.extends_fair"
   ],
   "note": "For every fair infinite execution. The functions of blocks are assumed to end."
  },
  {
   "property": "C122",
   "status": "proved",
   "theorems": [
    "Verif.SimpleQueue.every_call_returns",
    "Verif.Blocking.plain_calls_return",
    "Verif.Blocking.pop_returns_or_waits",
    "Verif.Blocking.pop_returns_after_timeout",
    "Verif.Blocking.extends_fair"
   ],
   "note": "For every fair infinite execution. The destructors, move and copy operations of the elements and the function of popOrCall are assumed to end."
  },
  {
   "property": "C123",
   "status": "proved",
   "theorems": [
    "Verif.Blocking.single_consumer_returns",
    "Verif.Blocking.single_consumer_returns_after_insertion",
    "Verif.Blocking.waiting_pop_returns_or_empty"
   ],
   "note": "One thread removes elements; with several consumers this is false, see C51 and C57. Waiting threads need not be woken spuriously."
  },
  {
   "property": "C124",
   "status": "partial",
   "theorems": [
    "Verif.AirLock.plain_calls_return",
    "Verif.AirLock.load_returns_or_waits",
    "Verif.AirLock.unload_empties",
    "Verif.AirLock.load_returns_or_overtaken_partial",
    "Verif.AirLock.load_returns_partial",
    "Verif.AirLock.load_starves_violation"
   ],
   "note": "The last sentence is false: a load can be overtaken by other loads for ever (witness). Proved: it returns, or other loads fill the airlock again and again; and with finitely many calls of load and try_load every load returns."
  },
  {
   "property": "C125",
   "status": "proved",
   "theorems": [
    "Verif.AirLock.weak_linearizable",
    "Verif.AirLock.happensBefore_order",
    "Verif.AirLock.runs_exchange",
    "Verif.AirLock.weak_stale_violation"
   ],
   "note": "weak_stale_violation shows that the order of time cannot be had: answers may be out of date unless happens-before orders the calls."
  },
  {
   "property": "C126",
   "status": "proved",
   "theorems": [
    "Verif.AirLock.weak_race_free",
    "Verif.AirLock.weak_race_reported",
    "Verif.AirLock.weak_locked_reads",
    "Verif.AirLock.weak_no_lost_wakeup",
    "Verif.AirLock.weak_no_deadlock"
   ],
   "note": ""
  },
  {
   "property": "C127",
   "status": "partial",
   "theorems": [
    "Verif.Mapped.SeveralStr.mapped_unstable_partial",
    "Verif.Mapped.SeveralStr.mapped_stable_partial",
    "Verif.Mapped.SeveralStr.dual_unstable_partial",
    "Verif.Mapped.SeveralStr.dual_stable_partial",
    "Verif.Mapped.SeveralStr.moves_unstable_partial",
    "Verif.Mapped.SeveralStr.moves_stable_partial",
    "Verif.Mapped.SeveralStr.moves_dual_unstable_partial",
    "Verif.Mapped.SeveralStr.moves_dual_stable_partial",
    "Verif.Mapped.SeveralStr.copy_outlives_violation",
    "Verif.Mapped.SeveralStr.copy_outlives_stable_violation",
    "Verif.Mapped.SeveralStr.dual_copy_outlives_violation",
    "Verif.Mapped.SeveralStr.assign_over_original_violation",
    "Verif.Mapped.SeveralStr.moveAssign_over_original_violation",
    "Verif.Mapped.SeveralStr.copyAssign_moved_violation",
    "Verif.Mapped.SeveralStr.copy_full_violation"
   ],
   "note": "False as stated: keys of a copy are views of strings of the original, so searching the copy after the original is destroyed is undefined behaviour (proved for every state reached without copies). Missing: programs that destroy or assign to an object while keys of a copy may refer to its strings; copies while the stored strings exactly fill their block slots; copy assignment to moved-from objects; what C39 and C43 exclude. Without copies nothing but uses of moved-from objects is excluded."
  },
  {
   "property": "C128",
   "status": "proved",
   "theorems": [
    "Verif.Mapped.Vector.exact_unstable",
    "Verif.Mapped.Vector.exact_stable",
    "Verif.Mapped.Vector.second_term_finds_successor",
    "Verif.Mapped.Vector.second_term_finds_next_insertion"
   ],
   "note": "With stable storage unchecked accesses beyond the end (by index, or assigning by a term one past the end) end the description; they are not shown to be undefined in the model. All other unsafe calls are."
  },
  {
   "property": "C129",
   "status": "proved",
   "theorems": [
    "Verif.Mapped.Pointer.exact_history",
    "Verif.Mapped.Pointer.exact_no_leak",
    "Verif.Mapped.Pointer.second_term_finds_successor"
   ],
   "note": ""
  },
  {
   "property": "C130",
   "status": "proved",
   "theorems": [
    "Verif.Mapped.DualPtr.exact_history",
    "Verif.Mapped.DualPtr.exact_state",
    "Verif.Mapped.DualPtr.exact_no_leak",
    "Verif.Mapped.DualPtr.insert_keeps_first",
    "Verif.Mapped.DualPtr.removal_takes_default"
   ],
   "note": ""
  },
  {
   "property": "C131",
   "status": "proved",
   "theorems": [
    "Verif.Mapped.Str.exact_stable",
    "Verif.Mapped.Str.exact_unstable",
    "Verif.Mapped.Str.refused_iff_found",
    "Verif.Mapped.Str.keyless_removal_hides_empty"
   ],
   "note": "For stable storage unchecked index accesses beyond the end end the description (they are not shown to be undefined in the model)"
  },
  {
   "property": "C132",
   "status": "proved",
   "theorems": [
    "Verif.Mapped.Dual.exact_unstable",
    "Verif.Mapped.Dual.exact_stable"
   ],
   "note": "For stable storage unchecked index accesses beyond the end end the description (they are not shown to be undefined in the model)"
  },
  {
   "property": "C133",
   "status": "proved",
   "theorems": [
    "Verif.Mapped.DualStr.exact_unstable",
    "Verif.Mapped.DualStr.exact_stable",
    "Verif.Mapped.DualStr.exact_state",
    "Verif.Mapped.DualStr.exact_state_unstable"
   ],
   "note": "For stable storage unchecked index accesses beyond the end end the description (they are not shown to be undefined in the model)"
  },
  {
   "property": "C134",
   "status": "proved",
   "theorems": [
    "Verif.WorkBlock.Prog.programs",
    "Verif.WorkBlock.Prog.future_settled",
    "Verif.WorkBlock.Prog.future_awaits_block",
    "Verif.WorkBlock.Prog.runs_at_most_planned"
   ],
   "note": "Statements that are undefined (use of an object that does not exist, get() of a future that is not valid) are answered `none` by both sides. Self-assignment and packaged_tasks supplied by the caller are not in these programs."
  },
  {
   "property": "C135",
   "status": "partial",
   "theorems": [
    "Verif.CircularBuffer.no_int_overflow",
    "Verif.StackBuffer.no_int_overflow_partial",
    "Verif.StackBuffer.no_int_overflow_side_by_side_partial",
    "Verif.StackBuffer.overflow_violation"
   ],
   "note": "Proved in full for CircularBuffer. StackBuffer violates it: the sum in StackBuffer.hpp:249 overflows for buffers of 1 GB and more that were resized while holding messages; proved for sizes below 2^30, and for all sizes except for that one sum. The theorems of C10-C15 and C113 are about a model with unbounded integers; by C135 it agrees with the code for sizes below 2^30."
  },
  {
   "property": "C136",
   "status": "partial",
   "theorems": [
    "Verif.Block.Iter.wide_add_partial",
    "Verif.Block.Iter.wide_sub_partial",
    "Verif.Block.Iter.wide_movement_small_partial",
    "Verif.Block.Iter.wide_movement_lost",
    "Verif.Block.Iter.wide_movement_violation",
    "Verif.Block.Iter.wide_movement_full_violation"
   ],
   "note": "exact conditions under which += and -= arrive; missing because the code violates it: distances that do not fit in an int"
  },
  {
   "property": "C137",
   "status": "partial",
   "theorems": [
    "Verif.Block.Iter.addresses_in_blocks_partial",
    "Verif.Block.Iter.addresses_computed",
    "Verif.Block.Iter.addresses_in_blocks_violation"
   ],
   "note": "exact conditions for each operator; missing because the code violates it: -- at the first element of a block, movements into another block"
  },
  {
   "property": "C138",
   "status": "partial",
   "theorems": [
    "Verif.Block.Vector.ctor_throw_leak",
    "Verif.Block.Vector.ctor_not_reached",
    "Verif.Block.Vector.ctor_ended",
    "Verif.Block.Vector.ctor_throw_array_partial",
    "Verif.Block.Vector.ctor_throw_violation"
   ],
   "note": "exactly what is left behind for every point of failure, and that it stays; missing because the code violates it: nothing is given back except when the array itself cannot be allocated"
  },
  {
   "property": "C139",
   "status": "partial",
   "theorems": [
    "Verif.Block.Deque.ctor_throw_leak",
    "Verif.Block.Deque.ctor_throw_array_partial",
    "Verif.Block.Deque.ctor_throw_violation"
   ],
   "note": "exactly what is left behind for every point of failure, and that it stays; missing because the code violates it: nothing is given back except when the array itself cannot be allocated"
  },
  {
   "property": "C140",
   "status": "partial",
   "theorems": [
    "Verif.Block.Vector.iterate_written_partial",
    "Verif.Block.Vector.updates_written_partial",
    "Verif.Block.Vector.push_only_iterate",
    "Verif.Block.Deque.iterate_written_partial",
    "Verif.Block.Deque.updates_written_partial",
    "Verif.Block.Deque.push_only_growth"
   ],
   "note": "exactly which calls read an entry that was never written, in every reachable state: push_back, pop_back, clear of the vector and push_front, pop_front, pop_back, clear of the deque never do; missing because the code violates it: end() after a full block, push_back of the deque when its array grows"
  },
  {
   "property": "C141",
   "status": "partial",
   "theorems": [
    "Verif.Block.Vector.int_members_partial",
    "Verif.Block.Vector.memory_bounded",
    "Verif.Block.Vector.push_only_int_members",
    "Verif.Block.Vector.newSize_int_members"
   ],
   "note": "all int members fit as long as no vector has more than 2^30 full blocks; missing because the code violates it: more elements"
  },
  {
   "property": "C142",
   "status": "partial",
   "theorems": [
    "Verif.Block.Deque.int_members_partial",
    "Verif.Block.Deque.memory_bounded",
    "Verif.Block.Deque.push_only_int_members",
    "Verif.Block.Deque.newSize_int_members"
   ],
   "note": "all int members fit as long as no deque has more elements than fill 2^30 - 6 blocks; missing because the code violates it: more elements"
  },
  {
   "property": "C143",
   "status": "partial",
   "theorems": [
    "Verif.WorkQueue.Inner.inner_close_partial",
    "Verif.WorkQueue.Inner.never_returns",
    "Verif.WorkQueue.Inner.close_again",
    "Verif.WorkQueue.Inner.lock_given_up",
    "Verif.WorkQueue.Inner.inner_close_violation",
    "Verif.WorkQueue.Inner.two_blocks_violation"
   ],
   "note": "one block submitted once closes the queue: all workers exit, all calls of clients return, and closing again works; whatever blocks close the queue, none of them keeps the lock after its exception; missing because the code violates it: the call throws in every execution, and destroying the queue without closing again ends the program; two such blocks can deadlock"
  },
  {
   "property": "C144",
   "status": "partial",
   "theorems": [
    "Verif.WorkBlock.Tasks.future_settled",
    "Verif.WorkBlock.Tasks.no_future_waits",
    "Verif.WorkBlock.Tasks.given_runs_partial",
    "Verif.WorkBlock.Tasks.updated_runs_partial",
    "Verif.WorkBlock.Tasks.given_future_broken",
    "Verif.WorkBlock.Tasks.updated_future_lost",
    "Verif.WorkBlock.Tasks.given_violation",
    "Verif.WorkBlock.Tasks.updated_violation"
   ],
   "note": "futures stay as they are and none waits when all is gone; a task given to a block is run by it and futures taken from the block get the result; missing because the code violates it, in every program: futures taken from the task before it is given to the block, and updateTask with a task that was run before"
  },
  {
   "property": "C145",
   "status": "partial",
   "theorems": [
    "Verif.WorkBlock.memory_exact",
    "Verif.WorkBlock.failed_reset_partial",
    "Verif.WorkBlock.failed_ctor",
    "Verif.WorkBlock.failed_update_loses",
    "Verif.WorkBlock.update_recovers",
    "Verif.WorkBlock.failed_task_ctor_breaks",
    "Verif.WorkBlock.failed_update_violation"
   ],
   "note": "memory_exact: exactly what every history does. reset and the constructor from a function as claimed; missing because the code violates it, in every history: a failing updateWorkFunction loses the function (until an update succeeds), a failing constructor from a packaged task loses the task"
  },
  {
   "property": "C146",
   "status": "partial",
   "theorems": [
    "Verif.Block.Vector.noexcept_no_memory",
    "Verif.Block.Vector.pop_exact",
    "Verif.Block.Vector.clear_exact",
    "Verif.Block.Vector.push_exact",
    "Verif.Block.Vector.pop_no_memory_partial",
    "Verif.Block.Vector.clear_no_memory_partial",
    "Verif.Block.Vector.sized_requests",
    "Verif.Block.Vector.pop_terminates_violation",
    "Verif.Block.Vector.clear_terminates_violation",
    "Verif.Block.Vector.push_terminates_violation"
   ],
   "note": "moves, default construction, destruction, shrink_to_fit and all reads: proved. pop_back, clear, push_back: exactly when they need memory; missing because the code violates it: pop_back that leaves a block, clear of several blocks, push_back into a new block and the sized constructor end the program without memory"
  },
  {
   "property": "C147",
   "status": "partial",
   "theorems": [
    "Verif.Block.Deque.pop_no_memory_partial",
    "Verif.Block.Deque.pop_requests",
    "Verif.Block.Deque.pop_back_threw_violation",
    "Verif.Block.Deque.pop_front_threw_violation",
    "Verif.Block.Deque.pop_threw_leaks_violation"
   ],
   "note": "removals that need no memory are ordinary ones, and exactly which need memory: proved. Missing because the code violates it, in every state: a removal that throws damages the deque and loses a block"
  },
  {
   "property": "C148",
   "status": "partial",
   "theorems": [
    "Verif.Block.Deque.noexcept_no_memory_partial",
    "Verif.Block.Deque.clear_exact",
    "Verif.Block.Deque.clear_terminates_violation"
   ],
   "note": "default construction, moves, destruction and all reads: proved. clear: exactly when it needs memory; missing because the code violates it: clear of several blocks ends the program without memory"
  },
  {
   "property": "C149",
   "status": "partial",
   "theorems": [
    "Verif.Mapped.Vector.removal_no_memory_partial",
    "Verif.Mapped.Vector.clear_terminates_violation",
    "Verif.Mapped.Vector.remove_terminates_violation"
   ],
   "note": "proved unless the last element is removed and the number of elements is a multiple of the block size, or a container that has filled a block is cleared; there the code violates it, for every block size and all search terms"
  },
  {
   "property": "C150",
   "status": "partial",
   "theorems": [
    "Verif.Mapped.Str.kept_exact_stable",
    "Verif.Mapped.Str.kept_exact_unstable",
    "Verif.Mapped.Str.kept_bounded_partial",
    "Verif.Mapped.Str.kept_grows_violation"
   ],
   "note": "exactly which strings are kept, for all careful histories; at most one per element as long as no element is taken out. Missing because the code violates it, for every search term: strings of elements taken out are kept for ever"
  },
  {
   "property": "C151",
   "status": "partial",
   "theorems": [
    "Verif.Mapped.DualStr.kept_exact_stable",
    "Verif.Mapped.DualStr.kept_exact_unstable",
    "Verif.Mapped.DualStr.kept_bounded_partial",
    "Verif.Mapped.DualStr.kept_grows_violation",
    "Verif.Mapped.DualStr.refused_term_kept_violation"
   ],
   "note": "exactly which strings are kept, for all careful histories; at most one per element and added name as long as no element is taken out. Missing because the code violates it: strings of elements taken out and of refused calls are kept for ever"
  },
  {
   "property": "C152",
   "status": "partial",
   "theorems": [
    "Verif.Mapped.assign_threw_partial",
    "Verif.Mapped.dual_assign_threw_partial",
    "Verif.Mapped.assign_threw_data_violation",
    "Verif.Mapped.assign_threw_map_violation",
    "Verif.Mapped.dual_assign_threw_violation"
   ],
   "note": "proved if the failing storage keeps its size, or the last map is what fails and is left with some entries of the source or none. Missing because the code violates it, in every state: other contents of the failing member, and any failure of the first map of a DualMappedVector"
  },
  {
   "property": "C153",
   "status": "partial",
   "theorems": [
    "Verif.Block.Vector.old_iterator_partial",
    "Verif.Block.Vector.old_iterator_violation"
   ],
   "note": "dereferencing proved for all programs of appends and removals; advancing to the end proved if the number of reserved blocks is unchanged. Missing because the code violates it: advancing after the array of block pointers has been replaced"
  },
  {
   "property": "C154",
   "status": "partial",
   "theorems": [
    "Verif.Block.Deque.old_iterator_partial",
    "Verif.Block.Deque.old_iterator_few_partial",
    "Verif.Block.Deque.old_iterator_shifted_violation",
    "Verif.Block.Deque.old_iterator_grown_violation"
   ],
   "note": "dereferencing proved for all careful programs; advancing to the end proved if every call finds room in the array of block pointers; both proved without conditions on the state for default constructed deques with less than 33.5 blocks of additions at the back and at most 30.5 at the front (old_iterator_few_partial; the bounds are exact). Missing because the code violates it: advancing after the entries of the array have been moved or the array replaced; and what careful excludes"
  },
  {
   "property": "C155",
   "status": "proved",
   "theorems": [
    "Verif.Block.Vector.self_push"
   ],
   "note": ""
  },
  {
   "property": "C156",
   "status": "partial",
   "theorems": [
    "Verif.Block.Deque.self_push_back_partial",
    "Verif.Block.Deque.self_push_front_partial"
   ],
   "note": "complete except for what careful excludes (calls that are undefined for any argument, see C26 and C30, among them a push_front that shifts the pointer array onto an overlapping range)"
  },
  {
   "property": "C157",
   "status": "proved",
   "theorems": [
    "Verif.Block.Vector.swap_exact",
    "Verif.Block.Vector.swap_seen"
   ],
   "note": "swap_seen is for vectors that are not moved-from; swap_exact covers all"
  },
  {
   "property": "C158",
   "status": "proved",
   "theorems": [
    "Verif.CircularBuffer.std_swap_exact",
    "Verif.CircularBuffer.std_swap_seen",
    "Verif.StackBuffer.std_swap_exact",
    "Verif.StackBuffer.std_swap_seen",
    "Verif.StackBuffer.member_swap_exact"
   ],
   "note": ""
  },
  {
   "property": "C159",
   "status": "partial",
   "theorems": [
    "Verif.Block.Deque.swap_exact",
    "Verif.Block.Deque.swap_seen_partial"
   ],
   "note": "the exchange itself is complete (swap_exact, any state); the later program is restricted to calls careful admits (C26, C30)"
  },
  {
   "property": "C160",
   "status": "partial",
   "theorems": [
    "Verif.SimpleQueue.life_partial",
    "Verif.SimpleQueue.life_noEmpty_partial",
    "Verif.SimpleQueue.std_swap_partial",
    "Verif.SimpleQueue.linearizable_violation",
    "Verif.SimpleQueue.move_violation"
   ],
   "note": "fails for empty() after pushVector of an empty vector (C45) and on objects moved from (C49); life_partial leaves these two out, life_noEmpty_partial only empty()"
  },
  {
   "property": "C161",
   "status": "partial",
   "theorems": [
    "Verif.BlockingQueue.life_partial",
    "Verif.BlockingQueue.std_swap_partial",
    "Verif.BlockingQueue.life_sequential_partial",
    "Verif.BlockingQueue.std_swap_sequential_partial",
    "Verif.BlockingQueue.move_violation"
   ],
   "note": "all interleavings for histories without empty(), size() and try_peek, for which it fails (move_violation); all calls if they are made one at a time and no insertion throws"
  },
  {
   "property": "C162",
   "status": "partial",
   "theorems": [
    "Verif.BlockingPriorityQueue.life_partial",
    "Verif.BlockingPriorityQueue.std_swap_partial",
    "Verif.BlockingPriorityQueue.life_sequential_partial",
    "Verif.BlockingPriorityQueue.move_violation"
   ],
   "note": "all interleavings for histories without empty() and try_peek, for which it fails (move_violation); all calls if they are made one at a time without the priority channel and no insertion throws"
  },
  {
   "property": "C163",
   "status": "proved",
   "theorems": [
    "Verif.Mapped.Several.swap_vector",
    "Verif.Mapped.Several.swap_stable"
   ],
   "note": "for any code working on one object, in particular Code.mapped and Code.dual; any state of moved-from maps; the arrays of block pointers of stable storage are in C157"
  },
  {
   "property": "C164",
   "status": "proved",
   "theorems": [
    "Verif.Mapped.SeveralPtr.mapped_swap",
    "Verif.Mapped.SeveralPtr.dual_swap"
   ],
   "note": "any state of moved-from maps"
  },
  {
   "property": "C165",
   "status": "proved",
   "theorems": [
    "Verif.Mapped.SeveralStr.swap_vector",
    "Verif.Mapped.SeveralStr.swap_stable"
   ],
   "note": "for any code working on one object, in particular Code.mapped and Code.dual; any state of moved-from maps; the keys refer to strings that the swap leaves where they are; the arrays of block pointers are in C157"
  },
  {
   "property": "C166",
   "status": "proved",
   "theorems": [
    "Verif.WorkBlock.StdSwap.swap_exact",
    "Verif.WorkBlock.StdSwap.swap_seen"
   ],
   "note": "a block swapped with itself is left out (self-move of packaged_task)"
  },
  {
   "property": "C167",
   "status": "proved",
   "theorems": [
    "Verif.SimpleQueue.source_sound",
    "Verif.SimpleQueue.assign_actual",
    "Verif.SimpleQueue.assign_fifo",
    "Verif.SimpleQueue.no_deadlock",
    "Verif.SimpleQueue.race_free",
    "Verif.SimpleQueue.every_call_returns"
   ],
   "note": "assignment of a queue to itself is left out (self-move of std::vector); operator= does not lock the source, so a source in use is outside the claim"
  },
  {
   "property": "C168",
   "status": "partial",
   "theorems": [
    "Verif.Blocking.assign_wakes_partial",
    "Verif.Blocking.assign_waiter_violation"
   ],
   "note": "the assignment does not notify: shown for every number of later insertions; a thread that wakes up by itself or at its timeout takes the first element. The assignment is modelled as one step"
  }
 ]
}
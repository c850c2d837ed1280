# Formal model of GMLC-TDC/containers in Lean 4

This file is the plan and the trusted-base statement.  `properties.jsonl` lists the
English properties, `MANIFEST.json` maps each of them to the theorems that settle it,
`seeded/LOG.jsonl` records the wrong-program experiments.

## 1. Trusted base

* Lean 4.33.0's kernel.
* The axioms a theorem may depend on: `propext`, `Classical.choice`, `Quot.sound` (Lean's
  standard ones).  No axiom is added, no `sorry`, no `native_decide`, no `bv_decide`.
  `Verif/Axioms.lean` checks during the build that every theorem named in `MANIFEST.json`
  depends on nothing else.
* The claim that the model says what the C++ says.  Each definition cites the file and
  lines it models and every simplification is stated there.  The repository's own unit
  tests, transcribed as `#guard`s and `example`s in `Verif/*/UnitTests.lean`, are a sanity
  check of this step (they are tests of the model, not proofs).

## 2. Modelling conventions

* **Undefined behaviour is an outcome, not a default.**  Memory accesses go through
  `Option`/`Except`-valued primitives; an access outside a block, a use of a dead cell, a
  double free is `none` (or `.ub`) and theorems state that it does not happen.
* **Integers.**  `int` message lengths are `Int` in the 32-bit range where they are
  stored in memory (headers are encoded to and decoded from four little-endian bytes);
  pointer differences and `size_t` are unbounded `Int`/`Nat` (64-bit overflow is not
  modelled).  The `int` members of the stable containers are unbounded in the model; C141 and C142
  say when they fit.
* **Concurrency.**  Sequentially consistent interleaving of atomic steps; an unbounded
  number of threads (`Nat` ids); a step is one lock acquisition or release, one atomic
  load/store/compare-exchange, one test or update of the data protected by a lock, one
  condition variable wait/notify.  Spurious wake-ups and timeouts are steps.  The queues
  and WorkQueue use `std::atomic` with default (seq_cst) ordering and mutexes only, and for the
  element vectors the absence of races is itself proved, so sequential consistency is
  the semantics the C++ standard gives to these programs.  AirLock uses acquire and release
  ordering: C60-C62, C101, C102 and C124 are about interleavings only, C125 and C126 are about the C++ memory
  model (`AirLock/WeakModel.lean`).
* **Linearizability** is defined once, in `Verif/Conc/Linearizable.lean`, without reference
  to any container: a history (calls and returns) is linearizable if one internal event
  per call can be inserted between its call and its return such that the inserted events
  form a legal sequential history.
* Exceptions thrown by element constructors and `std::bad_alloc` are modelled where C77 and later properties say so; a
  call carries in its argument whether (and where) it throws, so every pattern of failures is covered.

## 3. Plan per property

Where the code does not satisfy the English property, the plan is: a theorem
`..._violation` exhibiting a concrete reachable counterexample in the model, plus a
`..._partial` theorem for the largest natural class of inputs on which the property holds.

| id | model | proof |
|----|-------|-------|
| C01-C04, C07, C08 | `CircularBuffer/Model.lean`: byte array + read/write offsets, headers in memory | representation relation "segments in memory parse to the queue"; refinement of each operation to a list queue, induction over histories. Full property fails (three defects, section 5); partial: producers that do not overfill the buffer (exactly characterised in C114) |
| C05, C06 | owner class `CircularBuffer` (resize, copy, move, free) | case analysis on the four relocation cases over the representation relation |
| C09-C12, C16 | `StackBuffer/Model.lean`: byte array, index entries in memory growing down | representation relation: index table parses to a list of disjoint blocks below `next`; refinement to a list stack |
| C13-C15 | owner class `StackBuffer` | as above; C14 fails, witness |
| C17-C23 | `Block/Vector/Model.lean`: heap of blocks of cells (uninitialised / live / dead), slot array, free list | heap invariant + refinement to `List`; addresses are (block id, offset) |
| C24, C25 | `Block/Iterator/Model.lean`: (slot pointer, block, offset) | division/remainder arithmetic; C25 fails, witness |
| C26-C32 | `Block/Deque/Model.lean` | as for the vector with two ends |
| C33-C37 | `Mapped/Vector/Model.lean` over an interface of element storages (`Mapped/Store.lean`: `std::vector` or StableBlockVector) and a model of `std::map`/`std::unordered_map` with arbitrary iteration order (`Mapped/Map.lean`) | refinement to an association of keys with elements |
| C38 | `Mapped/Pointer/Model.lean` | as above with object identities |
| C39 | `Mapped/Str/Model.lean` | names stored in a deque, lookup keys are references to stored names |
| C40-C42 | `Mapped/Dual/Model.lean` | as C33 with two maps |
| C43 | `Mapped/DualStr/Model.lean` | as C40 |
| C44 | `Mapped/DualPtr/Model.lean` | as C40 |
| C45-C49 | `SimpleQueue/Model.lean`: interleaving model | inductive invariant, fixed linearization points, ghost trace |
| C50-C55 | `Blocking/Model.lean`, shared with BlockingPriorityQueue (parameter `false`), properties in `BlockingQueue/Props.lean`: interleaving model with condition variable | linearization by insertion into the ghost trace; lost wake-up: invariant for one consumer thread, witness for two |
| C56-C59, C71 | `Blocking/Model.lean` (parameter `true`), properties in `BlockingPriorityQueue/Props.lean` | as C50 with two channels |
| C60-C62 | `AirLock/Model.lean` | fixed linearization points; wake-up invariant |
| C63-C67, C72, C73 | `WorkQueue/Model.lean`: workers, three queues used as atomic FIFO objects; `WorkQueue/Full`: the same with the code of the queues, which refines it | invariants over interleavings; C73 for any number of closing clients (`WorkQueue/Joined.lean`), C66 for closing calls that do not overlap; C66 by a measure that every step after the halt flag is set lowers, and an analysis of the states in which nobody can go on |
| C68 | `WorkBlock/*` | state machine refinement over a model of packaged_task and its shared states; what happens with tasks that are not new is proved separately |
| C69 | `MapOps.lean` | by computation on the map model |
| C74 | `Mapped/Several/*`: several MappedVector or DualMappedVector objects over one heap | the single-object simulation run inside the frame condition of the heap invariant of C21, C22 |
| C75 | `Mapped/SeveralPtr/*`: several MappedPointerVector or DualMappedPointerVector objects over one heap | the heap is divided among the containers; frame lemma for every call of one container |
| C76 | `Block/Range.lean`: what `assign` does with a pair of iterators; operations `assignRange`, `moveRange` of the programs of C21, C22; `Block/Mixed/`: programs with vectors and deques of all block sizes on one heap, with ranges from any of them to any other | loop invariants in which the rest of the range is still readable (`Feeds`) while the target is written |
| C77 | `SimpleQueue/Model.lean`: calls whose element operations throw, with the unwinding of the locks as steps | the simulation of C45; `Conc/Without.lean` removes the calls without effect from a history |
| C78, C79 | `Blocking/Model.lean`: insertions that throw, with the unwinding of the locks as steps | the simulations of C50, C56; `empty()`, `try_peek` and wake-ups fail, witnesses |
| C80-C82 | `Block/Vector/Throw.lean`: insertions during which `new[]`, the allocator or the element constructor throws, assignments that throw; `Reached` (ThrowProps) adds them to the programs of C21 | the invariant of C21 holds after every failure that has no other effect; a constructor that throws leaves `Broken`, a hole after the last element, from which the undefined calls follow |
| C83-C85 | `Block/Deque/Throw.lean`, likewise, at both ends | likewise, `BrokenB` and `BrokenF` |
| C86-C89 | `Mapped/Throw.lean`: `emplace_back` and traversals that throw, for both storages; `Mapped/Vector/Throw.lean`, `Mapped/Dual/Throw.lean`: every call with every operation in it that can throw | simulation: a call that throws leaves what the specification `left` says; induction over histories with any number of exceptions |
| C90 | `Mapped/RemoveThrow.lean`: `removeIndex` stopping in any round of its loops | from the invariant of the histories above |
| C91-C94 | `Mapped/Pointer/Throw.lean`, `Mapped/DualPtr/Throw.lean`: every insertion with every operation in it that can throw, including what happens to the pointer passed | as C86-C89; ownership is part of the invariant |
| C95 | `removeIndexFault`, `removeFault` in `Mapped/Pointer/ThrowProps.lean`, `Mapped/DualPtr/ThrowProps.lean` | as C90 |
| C96, C97 | `Mapped/Str/Throw.lean`: every call with every operation in it that can throw, including the `emplace_back` of the string | as C86, C87; the invariant includes that all views refer to living strings of the container |
| C98, C99 | `Mapped/DualStr/Throw.lean`: as for C96, with the second map | as C86, C87; the state left is that of `DualMappedVector` (C88) with the strings resolved |
| C100 | `removeIndexFault` in `Mapped/DualStr/ThrowProps.lean`: the copy of a second search term throws and the collected terms are destroyed | as C90; with stable storage, the only one with which removals compile |
| C101, C102 | `AirLock/Model.lean`: calls whose element operations throw, with the unwinding of the lock as a step | the simulation of C60 and the invariant of C61; `Conc/Restrict.lean`: systems in which only some calls are made |
| C103, C104 | `Blocking/Model.lean`: pops and try_peek that throw when the element is moved out or copied, pops that throw when it is moved into the result, a function of popOrCall that throws; the unwinding of the lock as a step | the simulations of C50, C56; `Linearizable.withoutOf` removes the calls without effect; elements lost are counted |
| C105, C106 | `WorkQueue/Model.lean`, `WorkQueue/Full`: isFinished() as a call; `WorkQueue/Spec.lean`: `accesses`, what the next step of a thread reads or writes of the data that is neither atomic nor locked, `race` | counting of C63 (a thread that has the block, has run it or is about to set its flag); `flag_frame`: there are no other accesses; the vectors in the queues by C47; properties in `WorkQueue/Race.lean`, `WorkQueue/Full/Race.lean` |
| C107, C108 | `Block/Arrays.lean`: an account of the arrays made by `new X*[n]`; `Block/Vector/Arrays.lean`, `Block/Deque/Arrays.lean`: each function that makes or deletes an array, or calls one that does, with this account | each function does what the one without the account does and replaces the arrays of its object (`Same`), so programs run with the account whenever they run without it; each array belongs to one object (`Account`); properties in `Block/Vector/ArraysProps.lean`, `Block/Deque/ArraysProps.lean` |
| C109, C110 | `Blocking/WaitSpec.lean`: what is seen of a thread: calls, results, beginnings and ends of waits, calls of the function passed to popOrCall | what has been seen of the current call determines, and is determined by, the position in it (`Doing`, `Blocking/Waits.lean`); what the function puts into the queue is found because of the invariant of C51, C57 |
| C111 | `StackBuffer/Heap.lean`: the class with pointers into a heap of blocks (`Common/Heap.lean`): sharing, leaks, double deletes and uses after delete can occur, `new` may fail | refinement of the model with blocks as values (`Sees`, `Holds` in `StackBuffer/HeapLemmas.lean`: distinct objects own distinct live blocks, and no others are live); C13–C15 for the rest |
| C112 | `StackBuffer/Align.lean`: calls with accesses to misaligned index entries undefined | by the invariant of C09 the index entries lie a multiple of 8 bytes before the end of the memory |
| C113 | `CircularBuffer/Heap.lean`: the class with pointers into a heap of blocks (`Common/Heap.lean`): sharing, leaks, double deletes and uses after delete can occur, `new` may fail | refinement of the model with blocks as values (`Sees`, `Holds` in `CircularBuffer/HeapLemmas.lean`); C06 for the rest |
| C114 | the models of C01 and C05; the conditions are `Raw.overfills` (`CircularBuffer/Spec.lean`) and `Buf.jams` (`OwnerSpec.lean`) | safe: the representation relation of C01; unsafe: popping everything and asking `empty` gives a wrong answer (`jam_drain`) |
| C115 | `WorkQueue/Throw/Model.lean`: the model of C63 with allocations that may fail | simulation: every execution with failures is one without them in which the calls of addWorkBlock that threw were not made (`failures_refine`), so C63 applies |
| C116 | the same | the halt flag is set before anything fails, so the measure of C66 bounds the steps and a state of rest has no live worker; closing again and destroying: witnesses and general theorems for when they fail and when they succeed (invariant: one call that closes the queue joins nobody before its joins) |
| C117 | `construct`: which of the threads can be started is a parameter | induction over the loop; the exact conditions of the three outcomes |
| C118 | the model of C63; `taken`: how many blocks an execution takes from a queue | potential argument over the steps: (medium blocks taken) + counter + (threads about to increase it) against (R + T) for each low block taken or reset pending; a reset frees R + T |
| C119 | the model of C118 | potential argument per thread: a thread that takes a low block needs r new increments of the counter for its next one, except for one pending reset of each other thread |
| C120 | the model of C118; `movesOf`: number of steps of one thread (waiting for a lock or for a notification is not a step; the end of a wait is, by notification, timeout or spuriously) | a worker that keeps making steps while a queue is not empty takes a block at least once in 22 steps (rank of its program counter, at most 28); the number of blocks taken first is bounded by position, C118 and C119 |
| C121 | the model of C63; infinite executions and fairness in Verif.Conc.Infinite | workers make infinitely many steps (the lock is given back again and again, waits end by timeout); with the bounds of C120 a block is taken; for low priority the counter, increased again and again, comes back to 0 even after an overflow, then C118 applies; a thread that has taken a block runs or returns it. `extends_fair`: fair executions exist |
| C122 | the models of C45 and C50; `FairTo` in Verif.Conc.Progress: only threads that do not wait are scheduled fairly | Verif.Conc.Progress: if locks are taken in a fixed order and positions have ranks, each lock is free again and again, and each thread that wants it gets it (by fairness), so it reaches a wait or returns; the blocking queues and SimpleQueue are instances. Every finite execution can be continued to a fair one (`extends_fair`) |
| C123 | as C122 | with C51 and C57 a waiting consumer of a non-empty queue has a thread on the way to notify; it gets there by C122; the consumer then finds the element: the queue is not empty and nobody else removes anything |
| C124 | the model of C60; `FairTo` in Verif.Conc.Progress | AirLock is an instance of Verif.Conc.Progress; if a load does not return and the slot is filled only finitely often, it stays empty from some time on (try_unload empties it), the load sleeps, by C61 a loader is awake or will be woken, and it fills the slot: contradiction. Each fill uses up a load, so without new loads there are finitely many. Starvation: `Infinite.cycle` (Verif.Conc.Cycle) repeats a finite schedule for ever |
| C125, C126 | `AirLock/WeakModel.lean`: the positions and steps of C60 with the stores of `loaded` in modification order, the steps that happen before each step, and reads that yield any store the coherence rules allow; `Conc/HappensBefore.lean`: linearizability with respect to happens-before | the calls are grouped by the store they see, groups in modification order; under the lock all stores are known, so the newest is read and the step is one of C60's (`R.effect`); a read outside the lock joins the group of the store it yields, which is late enough because the following stores are not known (`AirLock/WeakLemmas.lean`, `Conc/Clock.lean`) |
| C127 | `Mapped/SeveralStr/*`: several StringMappedVector or DualStringMappedVector objects; the elements in one heap, the strings in another, the keys are views of cells of the second one; the specification tracks whose strings the keys of an object may refer to (loans) | invariant: every key refers to a living string of an object it may use, strings never change while they can be referred to; the single-object simulation of C39, C43 with keys that refer to strings of others (`Str.SRepC`), the heap invariant of C21, C22 for the strings |
| C128 | `Mapped/Vector/ExactSpec.lean`: the values in order and a position for every term, one relation per call (`Step`), and which calls are safe | simulation for both storages without the restrictions of C33 (`exact_step`); the converse (unsafe calls are undefined) for vector storage; API-level corollaries for elements with two terms |
| C129 | `Mapped/Pointer/ExactSpec.lean`: the objects in order and a position for every term, one relation per call (`Step`), and which calls are safe | simulation without the restrictions of C38 (`exact_step`), and unsafe calls are undefined (`unsafe_undefined`), so that the description is exact; ownership as in C38 |
| C130 | `Mapped/DualPtr/ExactSpec.lean`: as `Spec.lean`, but `insert` and removal as they are (`actual`) | equality of all results, and of definedness, of program and description (`exact_history`), by simulation without the restrictions of C44; the invariant is that of C44, plus detaching a term from an unrelated element |
| C131 | the description of MappedVector in every history (`Mapped/Vector/ExactSpec.lean`) with strings as terms and the empty string as default constructed term; `One`: terms at different existing positions | the simulation of C39 (`lift`) composed with that of C128; `One` by induction; what is undefined, from the representation invariant of the storage (`iterate_full`, `back` of an empty vector) |
| C132 | `Mapped/Dual/ExactSpec.lean`: the specification of C40-C42 with `none` where the code is undefined (`described`) | equality of results and definedness for vector storage; for stable storage simulation up to the first call not described and, from the representation invariant, that this call is undefined or an access beyond the end |
| C133 | `Mapped/DualStr/ExactSpec.lean`: as C132, with `insert` as it is (`actual`) and undefined removals (`possible`) | the simulation of C43 extended by the excluded insertion; the collected terms are those of the element, so traversing the temporary vector is undefined exactly if they fill its slots |
| C134 | `WorkBlock/ProgSpec`, `Prog`, `ProgProps` | refinement of the shared states by planned runs (jobs) that belong to at most one block; blocks moved to themselves and tasks supplied by the caller are left out (C68 has the latter) |
| C135 | `CircularBuffer/Ints`, `StackBuffer/Ints` | each int expression of the code, as a function of the state before the call (`ints`); range invariants of all objects in all programs |
| C136, C137 | `Block/Iterator/Ints` | the movements with an `int` offset and a 64-bit movement; the position that a pair of slot and offset stands for is kept by `check` and `checkNeg`, so the result is right exactly if the conversion to `int` loses nothing and the sum does not overflow |
| C138, C139 | `Block/Vector/CtorThrow`, `Block/Deque/CtorThrow`; `Block/Leak` says what was allocated and forgotten | the loops of the constructors up to the failing operation keep the invariant of C21 and C30 for the unfinished object; the blocks it has are, after the exception, blocks of nobody, and every call leaves blocks of nobody alone |
| C140 | `Block/Iterator/Unwritten`, `Block/Vector/Unwritten`, `Block/Deque/Unwritten`: the functions that read block pointers again, with reading an entry that was never written undefined | in every reachable state they agree with the model, except in cases given exactly; for containers that were only filled with `push_back` the cases are computed from the number of values alone, by induction on it |
| C141 | `Block/Vector/IntMembers`: bounds on the members of type `int`, which the model has as unbounded numbers | invariant over all careful programs: blocks held, lengths of both arrays and the index of the last block are bounded by the largest number of elements so far; exact thresholds for vectors filled with `push_back` alone and for the sized constructor |
| C142 | `Block/Deque/IntMembers`: bounds on the members of type `int`, which the model has as unbounded numbers | invariant over all careful programs, as for C141; a queue with few elements at a time keeps small arrays for any number of insertions and removals; exact thresholds for deques filled with `push_back` alone and for the sized constructor |
| C143 | `WorkQueue/Inner`: blocks whose functions call closeWorkerQueue; `join` of a worker by itself throws | an execution in which one block closes the queue is, up to the exception, one of C66 in which a client does, so its measure bounds the steps; that the call never returns normally is an invariant for any number of such blocks |
| C144 | `WorkBlock/Tasks.lean`: programs as in C134 with variables of type std::packaged_task | invariant: every shared state that is not ready has exactly one owner, a block or a task; a state owned by a block that has lost its function is never given a value |
| C145 | `WorkBlock/Memory.lean`: the calls of C68 with failing allocations | refinement of every history to a block that may lose its function (`Lossy`); comparison with a block for which failing calls have no effect |
| C146 | `Block/Vector/NoMemory.lean`: the model with numbered arrays and blocks (C107) tells how often memory has been requested | for every state: which calls request memory, exactly; for reachable states: sizes at which removals need none; programs for every block size that end |
| C147 | `Block/Deque/PopMemory.lean`: the removals with a failing allocation of the array of spare blocks; `Block/Deque/NoMemory.lean`: requests counted in the model with numbered arrays (C108) | representation invariant: which removals throw, exactly; what the deque then is, in every state |
| C148 | `Block/Deque/NoMemory.lean`: requests counted in the model with numbered arrays (C108) | for every state: which calls request memory, exactly |
| C149 | `Mapped/Vector/NoMemory.lean`: removals with stable storage whose storage asks for memory under the conditions of C146 | representation invariant: which removals need no memory; programs that end, for all block sizes and search terms |
| C150 | `Mapped/Str/Kept.lean`: the strings read from the member `names`, compared with the insertions of the history | simulation extended by the list of strings; programs of any length that leave the container empty |
| C151 | `Mapped/DualStr/Kept.lean`: the strings read from the member `names`, compared with the calls of the history | simulation extended by the list of strings; programs of any length that leave the container empty or unchanged |
| C152 | `Mapped/AssignThrow.lean`: the implicit member by member assignment, stopped at any member, whose contents are then a parameter | simulation from the state left behind; for the violations, all states |
| C153 | `Block/Vector/OldIters.lean`: an iterator with the number of the array of block pointers it points into; reading a deleted array is undefined | invariant over appends and removals that follows the array (`run_keeps`), with the stable addresses of C18 |
| C154 | `Block/Deque/OldIters.lean`: an iterator with the number of the array of block pointers it points into; reading a deleted array is undefined | the place of an element in the array is followed through programs (`stay_run`), with the stable addresses of C27; `Room.lean`: bounds on the first and last position by the numbers of additions, so that the hypotheses speak of the calls only; for the violations, all states without room |
| C155 | `Block/Vector/SelfPush.lean`: push_back whose argument is an address, read after `blockCheck` | the block of element k is still at the same place after `blockCheck` and holds the same values; then simulation (C17) for the rest of the program |
| C156 | `Block/Deque/SelfPush.lean`: as C155, at both ends | as C155, with the positions counted from the first block |
| C157 | `Block/Vector/Swap.lean`: the four calls of std::swap in the model with arrays | direct computation for any state; simulation (C17) for later programs |
| C158 | `CircularBuffer/StdSwap.lean`, `StackBuffer/StdSwap.lean`: the four calls of std::swap in the model with a heap | direct computation for any state; a call on exchanged objects is the renamed call (case by case), then induction over the later program |
| C159 | `Block/Deque/Swap.lean`: as C157 | as C157 |
| C160 | `SimpleQueue/Moves.lean`: the life of a queue as an inductive predicate with the history of all its objects | the simulation of C45 is continued over each move: with no call in progress the specification's state is the contents; induction over the life |
| C161, C162 | `Blocking/Life.lean`, `Blocking/SeqLife.lean` (calls one at a time), `BlockingQueue/Life.lean`, `BlockingPriorityQueue/Life.lean`: as C160 | as C160, from the traces of C50 and C56 |
| C163, C164, C165 | `Mapped/Several/StdSwap.lean`, `Mapped/SeveralPtr/StdSwap.lean`, `Mapped/SeveralStr/StdSwap.lean`: the four steps of std::swap in the models of several objects (C74, C75, C127) | the world after the swap is the world before with two names exchanged (maps compared only where an object exists); renaming commutes with every call; induction over the later calls |
| C166 | `WorkBlock/StdSwap.lean`: the four steps of std::swap in the programs of C134 | the state after the swap is the state before with two names exchanged; renaming commutes with every statement |
| C167 | `SimpleQueue/Model.lean`: `assign` as a call of the interleaving model, each write a step; its argument is what a queue at rest can hold | the simulation of C45 with the effect at the write of the flag; `source_sound` for the argument; deadlock, races and termination are C46, C47 and C122, which quantify over all calls |
| C168 | `Blocking/AssignWaiting.lean`: the assignment as one step while both locks are free, in the model of C50 | it fails: an invariant (the flag is false, the other threads are inside insertions that do not notify) over all later insertions; for a thread that wakes up: its steps |

## 4. What is modelled and what is not

All containers of `gmlc/containers` are modelled, function by function.  Not modelled:

* **Everywhere.**  Compile-time machinery (SFINAE, `static_assert`, iterator traits, `noexcept` except in C146-C149), exceptions from
  user types and allocation failure except in the properties that say so (C77 and later), memory alignment (except C112), 64-bit overflow of sizes, destructors of trivially destructible
  values, CMake, tests, documentation.
* **Weak memory effects** (see section 2), except for AirLock (C125, C126).
* **Block/\***: the arrays of block pointers are lists; their allocation and release is modelled separately (C107, C108),
  without allocation failure; `std::copy` onto an overlapping later range is a parameter (`Pol`), because the standard leaves it
  undefined and implementations use `memmove`.
  Element values are opaque; a cell is uninitialised, live or dead.
  Copying a block pointer that has never been written (the growth of a slot array copies unused entries, and an iterator
  reads the entry after the last block) is formally undefined and taken as harmless, except in C140, which says exactly when it
  happens; using such a pointer to reach a block is undefined in the model, comparing it gives an arbitrary result.
* **Mapped/\***: a map is a list of entries in iteration order; where a new entry is placed is a parameter
  (`MapImpl`, any permutation), so results hold for ordered and unordered maps.  A `std::string_view` key is a
  reference to a stored string; comparing it reads that string, which is undefined after the string is gone
  (`Str/Map.lean`); nodes cache hash codes, any hash function is allowed.  `DualMappedPointerVector::at` does not compile when instantiated and
  is left out.  A default constructed key of fundamental type has an indeterminate value where the code leaves it
  uninitialised (`unset = none`).  The state of a moved-from map is a parameter (`Mapped/Several`, `Mapped/SeveralPtr`).
* **MapOps**: `std::map` is the sequence of its entries in the order of its comparison, `std::unordered_map` its
  buckets; the standard library's search functions are modelled on these.
* **Queues, AirLock**: a thread's call is a state machine with one step per access to shared data.  A moved-from
  `std::vector` is empty.  The function given to `popOrCall` is a call by another (virtual) thread between two
  steps of the caller.  In `Blocking` an element whose move constructor throws keeps its value.
* **WorkBlock, WorkQueue**: what a block's function does is opaque (a result or an exception); calls it makes into the
  queue, other than closing it (C143), are calls of another (virtual) client made before the step in which the function ends.  `std::condition_variable::wait_for` may return at any time.  Concurrent calls of
  `std::thread::join` on the same thread are a data race (C105); the other properties take them as harmless.  Allocations that fail are modelled in `WorkQueue/Throw`.  The counter is a `std::atomic<int>`, which
  wraps at 2^31.  `WorkQueue/Model.lean` treats each of the three
  SimpleQueue members as an atomic FIFO object; `WorkQueue/Full` replaces them by the code of SimpleQueue and
  proves that every execution is matched by one of the simpler model.

Conventions of the framework: `Verif/Conc/Linearizable.lean` (definition), `Trace.lean` and `Sim.lean` (proof
methods), `Lock.lean` (mutexes), `Check.lean` (execution of concrete schedules, used for the witnesses).

## 5. Where the code and the English property differ

Each line is a theorem giving a concrete reachable counterexample in the model.  The remaining part of the property is
proved in the `_partial` theorems listed in `MANIFEST.json`.

| property | behaviour of the code | theorem (under `Verif.`) |
|----|----|----|
| C01 | a message pushed once is delivered twice (capacity 20, 16 bytes) | `CircularBuffer.fifo_violation_duplicate` |
| C01 | a push that exactly fills the gap is accepted, then the buffer reports it is empty | `CircularBuffer.fifo_violation_loss` |
| C02 | the wrap marker is written past the end of the memory (capacity 18) | `CircularBuffer.inBounds_violation` |
| C05 | shrinking to exactly the used size delivers the message twice | `CircularBuffer.resize_violation` |
| C06 | a copy of a default constructed buffer, then a move into it: double free | `CircularBuffer.copy_of_default_violation` |
| C07 | an empty buffer of capacity 40 refuses a 20 byte message after earlier traffic | `CircularBuffer.empty_accepts_violation` |
| C14 | a non-empty buffer that has been resized refuses every message until it is emptied, even after growing | `StackBuffer.grow_violation` |
| C15 | a moved-from buffer accepts `resize` but has no memory | `StackBuffer.moved_from_violation` |
| C20 | iterating over a vector that exactly fills its reserved slots reads beyond the slot array | `Block.Vector.iterate_full_violation`; `careful_exact` (Careless.lean): exactly when, in every reachable state |
| C21 | the copy of a used and emptied vector cannot be destroyed: slot -1 is read | `Block.Vector.copy_emptied_violation`; in every reachable state: `copy_emptied_calls` (Moved.lean) |
| C22 | push_back on a moved-from vector; wrong size after move assignment | `Block.Vector.moved_from_push_violation`, `moved_from_size_violation`; every call, in every reachable state: `moved_ctor_calls`, `moved_assign_calls`, `moved_assign_push` (Moved.lean) |
| C25 | iterator movement by a negative offset lands in the wrong block | `Block.Iterator.negative_movement_violation` |
| C26 | `clear()` destroys cells that hold no element; `assign` reads beyond the slot array | `Block.Deque.clear_violation`, `assign_full_violation`; `careful_exact` (Careless.lean): exactly when, in every reachable state |
| C26 | relocation of the slot array by `std::copy` on overlapping ranges | `Block.Deque.pushFront_overlap_violation` |
| C29 | iteration when the slots are full; `begin()` of a moved-from deque | `Block.Deque.iterate_full_violation`, `moved_from_iterate_violation` |
| C30 | `StableBlockDeque(0)` and copies of default constructed deques read uninitialised cells | `Block.Deque.sized_zero_violation`, `copy_default_violation`; in every reachable state: `made_empty_calls`, and for moved-from deques `moved_calls` (Careless.lean) |
| C34 | removing an element with two keys leaves the other key bound to its successor | `Mapped.Vector.alias_violation` |
| C34 | removing an element without key erases the default key of another element | `Mapped.Vector.keyless_violation` |
| C35 | a stale key refers to an index beyond the end | `Mapped.Vector.stale_index_violation` |
| C38 | the same for MappedPointerVector | `Mapped.Pointer.alias_violation`, `keyless_violation` |
| C39 | the keys of a copied StringMappedVector refer to the strings of the original | `Mapped.Str.copy_violation` |
| C44 | `insert` with only the first key in use leaves that key on the old object | `Mapped.DualPtr.insert_violation`, `insert_remove_violation` |
| C45 | after pushVector of an empty vector, `empty()` is false | `SimpleQueue.linearizable_violation` |
| C49 | `empty()` of a moved-from SimpleQueue is false | `SimpleQueue.move_violation` |
| C51 | with two consumers one sleeps although the queue holds an element | `BlockingQueue.wakeup_violation` |
| C52 | `size()` with two producers, `empty()` during a push and after popOrCall | `BlockingQueue.size_violation`, `empty_violation`, `empty_violation_atRest` |
| C55 | `empty()` of moved queues | `BlockingQueue.move_violation`, `move_source_violation` |
| C57 | a sleeping consumer is not woken if another thread uses try_pop | `BlockingPriorityQueue.wakeup_violation` |
| C58 | `empty()` and `try_peek` ignore the priority channel | `BlockingPriorityQueue.empty_violation`, `peek_violation` |
| C65 | after 2^31 medium fetches a low priority block starves for up to 2^31 further fetches | `WorkQueue.starvation_violation` |
| C66 | two concurrent closers deadlock with the workers | `WorkQueue.two_closers_violation` |
| C67 | notifications are lost between the test and the wait, or not sent at all | `WorkQueue.lost_wakeup_violation`, `not_notified_violation` |
| C71 | `empty()` of a moved priority queue | `BlockingPriorityQueue.move_violation` |
| C72 | `isEmpty` under concurrency and after an empty vector | `WorkQueue.isEmpty_violation`, `isEmpty_flag_violation` |
| C74 | copies of emptied stable containers, use of moved-from ones | `Mapped.Several.copy_emptied_violation`, `moved_from_violation` |
| C75 | lookups in a moved-from pointer container | `Mapped.SeveralPtr.moved_from_violation` |
| C76 | a range ending at the end of a vector or deque that exactly fills its block slots | `Block.Vector.range_full_undefined`, `Block.Deque.range_full_undefined` |
| C78 | after a push into an empty queue that throws, `empty()` is false, `try_peek` misses the next element, and a waiting consumer is not woken by the next push | `BlockingQueue.throw_empty_violation`, `throw_peek_violation`, `throw_wakeup_violation` |
| C79 | the same with push and pushPriority | `BlockingPriorityQueue.throw_empty_violation`, `throw_peek_violation`, `throw_wakeup_violation` |
| C80 | the first insertion into a vector without memory, when the array can be allocated but the first block cannot: the vector cannot be destroyed or cleared | `Block.Vector.no_memory_new_violation` |
| C81 | `emplace_back` counts the cell of the new element before its constructor runs; if that throws, destruction, clear, back, pop_back and iteration touch an element that does not exist | `Block.Vector.element_throw_violation` |
| C82 | as C81 when the range is longer than the vector | `Block.Vector.element_throw_violation` |
| C83 | as C80; inserting into the deque again is undefined as well | `Block.Deque.no_memory_new_violation` |
| C84 | as C81; a throw at the front shifts all indices by one | `Block.Deque.element_throw_violation`, `element_throw_front_violation` |
| C85 | as C84 when the range is longer than the deque | `Block.Deque.element_throw_violation` |
| C86 | a search term that cannot be stored leaves an element without search term; with stable storage a throwing constructor breaks the container | `Mapped.Vector.map_throw_violation`, `element_throw_violation` |
| C87 | with stable storage a throwing constructor: the container can be neither cleared nor destroyed | `Mapped.Vector.element_throw_violation` |
| C88 | as C86; if the second search term cannot be stored the element stays under the first, and `insert_or_assign` has replaced the value | `Mapped.Dual.map_throw_violation`, `map2_throw_violation`, `assign_throw_violation`, `element_throw_violation` |
| C89 | as C87 | `Mapped.Dual.element_throw_violation` |
| C90 | `removeIndex` erases the element first and its search terms last: if copying one throws, they find the next element | `Mapped.Vector.remove_throw_violation`, `Mapped.Dual.remove_throw_violation` |
| C92 | a search term that cannot be stored: the object stays as an element without search term, the caller's pointer is gone | `Mapped.Pointer.map_throw_violation` |
| C94 | likewise; if the second search term cannot be stored, `insert_or_assign` leaves a new element under the first, which may have been that of another element | `Mapped.DualPtr.map1_throw_violation`, `map2_throw_violation` |
| C95 | removals erase the element first and its search terms last: if copying one throws, they find the next object | `Mapped.Pointer.remove_throw_violation`, `Mapped.DualPtr.remove_throw_violation`, `remove_key_throw_violation` |
| C96 | insertions append the element first, then the string, then the map entry: if one of the latter cannot be stored, the element stays without search term | `Mapped.Str.term_throw_violation` |
| C97 | if copying a search term throws, the container cannot be destroyed; with stable storage the same holds for constructors of elements | `Mapped.Str.name_throw_violation`, `element_throw_violation` |
| C97, C99 | if there is no memory for the first string, the container cannot be destroyed | `Mapped.Str.first_name_violation`, `Mapped.DualStr.first_name_violation` |
| C98 | as C96; `insert_or_assign` of two terms and `insert` store the first term before the second: if the second cannot be stored, the first stays; a throwing assignment leaves what it had done to the element | `Mapped.DualStr.term_throw_violation`, `map2_throw_violation`, `assign_throw_violation` |
| C99 | as C97 | `Mapped.DualStr.name_throw_violation`, `element_throw_violation` |
| C100 | if copying a second search term throws, the call is undefined (the vector of collected terms cannot be destroyed); if there is no memory for the first block of collected terms, likewise; if the array of blocks cannot be allocated, the last element is gone and its terms find the next element inserted | `Mapped.DualStr.remove_copy_violation`, `remove_memory_violation`, `remove_last_violation` |
| C101 | moving a value out that throws half way: the airlock stays loaded with an object that has lost its value, and the next try_unload returns that object | `AirLock.torn_violation` |
| C102 | a load that throws after having been woken uses up the wake-up: other loaders go on sleeping beside the empty slot | `AirLock.throw_lost_wakeup_violation` |
| C103 | pop() and the other pops remove the element from the queue before they move it into their result: if that throws, the element is lost | `BlockingQueue.pop_throw_violation` |
| C104 | as C103 | `BlockingPriorityQueue.pop_throw_violation` |
| C105 | `finished` is a plain bool: isFinished() of a block that is in the queue races with the worker; a block added twice is run by two workers at once; two closing clients join the same thread | `WorkQueue.poll_race`, `twice_race`, `close_race` |
| C106 | the flag is set after the function has ended and the future is ready: after wait() has returned isFinished() may be false | `WorkQueue.finished_violation` |
| C109 | with two consumers popOrCall can wait although its function has put an element into the queue | `BlockingQueue.function_fills_violation` |
| C110 | as C109 | `BlockingPriorityQueue.function_fills_violation` |
| C111 | a copy assignment that gets no memory leaves the target using the source's memory: messages pushed to one overwrite those of the other, use after delete once the source is destroyed | `StackBuffer.copy_assign_fails`, `StackBuffer.copy_assign_violation` |
| C111 | the memory of StackBuffer(0) is never deleted once the buffer is resized or assigned to | `StackBuffer.leak_violation` |
| C112 | sizes that are not multiples of 4 (e.g. StackBuffer(41)): every push that finds room accesses misaligned integers | `StackBuffer.misaligned_push`, `StackBuffer.misaligned_violation` |
| C113 | a copy assignment that gets no memory leaves the target using the source's memory: messages pushed to one overwrite those of the other, use after delete once the source is destroyed | `CircularBuffer.copy_assign_fails`, `CircularBuffer.copy_assign_violation` |
| C113 | the memory of CircularBuffer(0) is never deleted; a copy of a default-constructed buffer keeps a pointer to deleted memory, which move assignment deletes again | `CircularBuffer.leak_violation`, `CircularBuffer.copy_of_default_deletes_twice` |
| C168 | move assignment to a blocking queue does not notify the threads waiting in pop, and neither do later insertions | `Blocking.assign_waiter_violation` |
* **C116**: `closeWorkerQueue` sets `halt` before it allocates.  If the allocation fails, the call throws without joining the workers; the
  destructor then sees `halt` and does not join them either, so destroying a `std::thread` that is joinable calls `std::terminate`
  (`Throw.destroy_after_failure`, `destroy_violation`).  Calling `closeWorkerQueue` again helps only if the workers have exited by then
  (`second_close_succeeds_partial`); otherwise it waits for them holding the lock they need, for ever (`second_close_waits`,
  `second_close_violation`).  In the destructor the exception itself ends the program (`destroy_oom_violation`).
* **C117**: if a thread other than the first cannot be started, the exception destroys the vector of threads with running threads in it:
  `std::terminate` (`Throw.construct_terminates`, `construct_violation`).
* **C64, overlapping fetches**: two threads can both read the counter before either resets it; both then take a low priority block although a
  medium priority one is queued and `ratio` is 1 (`turns_overlap_violation`).  What remains true is C118.
* **C124** (AirLock starves a waiting load): notify_one (AirLock.hpp:87) only wakes the waiting thread; another load may take `door` before it, fill the slot, and the woken load waits again (67-69). `load_starves_violation` is a fair infinite execution in which try_unload unloads a value again and again, each time wakes the same load, and this load never returns. Proved instead (`_partial`): every load returns or is overtaken by other loads again and again; if there are finitely many calls of load and try_load, all loads return.
* **C125** (stale answers): without happens-before an answer of AirLock may be out of date: `weak_stale_violation` is an execution in which isLoaded is called after a try_load has returned true, nothing is unloaded, and isLoaded returns false. So linearizability in the order of time (C60) holds for the interleaving semantics only; in the C++ memory model it holds in the order of happens-before (`weak_linearizable`).
* **C127** (copies share strings): the implicitly defined copy constructor and copy assignment copy the map, whose keys are views of the strings of the ORIGINAL. `copy_outlives_violation`, `copy_outlives_stable_violation`: after any program without copies, if an object is copied and then destroyed, searching the copy for any search term it has is undefined behaviour (`dual_copy_outlives_violation` is an instance for DualStringMappedVector). `assign_over_original_violation`: assigning to the original makes the copy find elements under terms it never had and miss those it has; `moveAssign_over_original_violation`: undefined. `copyAssign_moved_violation`, `copy_full_violation`: the defects of StableBlockVector (C20, C22) appear with vector storage too, as the strings are kept in one. The `_partial` theorems hold for programs that keep an original unassigned and alive while keys of a copy may refer to its strings; the `moves_*_partial` theorems show that programs without copies need no such care.
* **C135**: a stack buffer of 2147483647 bytes that was resized with a message in it (which leaves `next` at the end of the block):
  making it smaller computes 2147483647 + 8 as `int` (`StackBuffer.overflow_violation`).
* **C136**: of the 2^32 elements of an object made with this size, `begin() + size()` compares equal to `begin()` and cannot be dereferenced, because the movement is converted to `int` (`Block.Iter.wide_movement_violation`); `+=` is right exactly if the distance from the start of the block is less than 2^31, `-=` exactly if the distance is.
* **C137**: `--` at the first element of a block computes an address before the block, and a movement into another block computes one far outside (`Block.Iter.addresses_in_blocks_violation`); `++` is right everywhere.
* **C138**, **C139**: the members of both containers are plain pointers, so that a constructor that throws forgets everything it allocated: the array of block pointers, every block allocated before the failure and the elements in it (`Block.Vector.ctor_throw_violation`, `Block.Deque.ctor_throw_violation`); only a failure to allocate the array itself leaves nothing.  `ctor_throw_leak` says exactly what is lost, for every point of failure.
* **C140**: `end()` forms `&((*it)[0])` for the entry after the last block when that block is full (BlockIterator.hpp:33).  A stable vector filled with `push_back` alone has never written that entry, so that every loop over it is undefined whenever its size is a positive multiple of the block size (`Block.Vector.push_only_iterate`).  The deque copies its whole array when it moves to a larger one, including the entries before its first block; filled with `push_back` alone these were never written, and the copy happens when 61, 125, 253, ... blocks are full (`Block.Deque.push_only_growth`).  `updates_written_partial` and `iterate_written_partial` give the exact cases in every reachable state.  All theorems of C20 to C31 take such reads as harmless, as they are on common machines.
* **C141**: the length of the array of block pointers is an `int` that is doubled (StableBlockVector.hpp:391) without a check.  `push_back` overflows it as soon as more than `2^30` blocks are full, although `size()` is a `size_t` (`Block.Vector.push_only_int_members`); the sized constructor overflows for `2^31 - 1` full blocks (`newSize_int_members`).  With fewer elements nothing overflows (`int_members_partial`).
* **C142**: as C141, the array of block pointers of the deque is doubled without a check.  `push_back` overflows its length when `2^30 - 3` blocks are full, counting from the middle of the first (`Block.Deque.push_only_int_members`), the sized constructor for `2^31 - 2` full blocks (`newSize_int_members`).  With no more than `2^30 - 6` blocks of elements at any time nothing overflows (`int_members_partial`).
* **C143**: the worker comes to its own thread object in `threadpool` and `join` throws `std::system_error`; the packaged task keeps the exception, so nobody notices.  The later threads are never joined, and as `halt` is set the destructor does not join them either, so destroying the queue calls `std::terminate` (`WorkQueue.Inner.inner_close_violation`; in every execution: `never_returns`, `inner_close_partial`).  A second block that closes the queue can deadlock it (`two_blocks_violation`).  A client who closes the queue again after everything has come to rest repairs it (`close_again`).
* **C144**: the constructor from a packaged task resets it, which breaks a future taken from the task before, in every program (`WorkBlock.Tasks.given_future_broken`, `given_violation`).  updateTask does not reset it, so `get_future` throws `future_already_retrieved` if the future was taken; the block keeps the task but has `loaded` false, claims to be finished after an execute that runs nothing, and the future never gets a value (`updated_future_lost`, `updated_violation`).  A task that was run before makes execute throw (`updated_runs_partial`).
* **C145**: updateWorkFunction sets `loaded` to false before it makes the new packaged task.  If that throws, the block has lost its function in every history: execute marks it finished without running anything, futures taken before wait for ever, reset throws (`WorkBlock.failed_update_loses`, `failed_update_violation`); the next successful update repairs it (`update_recovers`).  A constructor from a packaged task that throws has taken the caller's task and breaks its future (`failed_task_ctor_breaks`).
* **C146**: removing elements allocates: `pop_back` that leaves a block and `clear` of a vector with more than one block put blocks into the array of spare blocks, which is allocated on first use and doubled when full; both are declared noexcept, so that without memory the program ends (`pop_terminates_violation`, `clear_terminates_violation`, for every block size; exactly when: `pop_exact`, `clear_exact`).  `push_back` and the sized constructor are declared noexcept too if the copy constructor is (`push_terminates_violation`, `sized_requests`).
* **C147**: a removal that gives up a block allocates the array of spare blocks, or doubles it, after `csize` and the slot index have been changed.  If that throws, in every state: after pop_back the size is one less but the element lives, and an element appended later is not the last one (`pop_back_threw_violation`); after pop_front all indices are off by a whole block (`pop_front_threw_violation`); the block is lost (`pop_threw_leaks_violation`).
* **C148**: `clear` of a deque with more than one block allocates the array of spare blocks, or doubles it; it is declared noexcept, so that without memory the program ends (`Deque.clear_exact`, `Deque.clear_terminates_violation`).
* **C149**: by C146, `clear` of a stable MappedVector that holds more than a block, and `remove` of the last element when that gives up a block, end the program without memory (`Mapped.Vector.clear_terminates_violation`, `Mapped.Vector.remove_terminates_violation`, for all block sizes and search terms).
* **C150**: `names` is never shortened, not even by `clear`: the container keeps the search terms of all insertions that ever added an element (`Str.kept_exact_stable`, `Str.kept_exact_unstable`).  After `n` times inserting an element and taking it out it is empty and keeps `n` strings (`Str.kept_grows_violation`).
* **C151**: as C150; moreover `addSearchTerm` and `addSearchTermForIndex` push the string before they look whether it is in use: with a search term in use they return false and keep one more string each time (`DualStr.kept_grows_violation`, `DualStr.refused_term_kept_violation`).
* **C152**: the implicit copy assignment copies the elements first and the maps after them.  If the first map of a DualMappedVector cannot be copied, whatever it is left with, the old search terms of the second type find elements of the source, or looking them up is undefined (`dual_assign_threw_violation`); for MappedVector the same if its map is left as it was (`assign_threw_map_violation`), and lookups are undefined if the storage is left shorter (`assign_threw_data_violation`).
* **C153**: `push_back` deletes the array of block pointers when all of its entries are used, and all older iterators point into it.  In every state with all reserved blocks full, one `push_back` makes advancing an older iterator over the end of its block undefined (`old_iterator_violation`); dereferencing still works.
* **C154**: when the array of block pointers of a StableBlockDeque has no free entry at the end where a block is added, its entries are moved within it or copied to a larger array and the old one deleted.  In every such state one `push_back` makes older iterators wrong: with `F > 5` free entries at the front, advancing over the end of a block arrives `F - F / 2` blocks too far (`old_iterator_shifted_violation`); with at most five it is undefined (`old_iterator_grown_violation`).  Dereferencing still works.

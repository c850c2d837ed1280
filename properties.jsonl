{"id": "C01", "title": "CircularBuffer delivers messages first-in first-out, byte for byte", "statement": "In every sequence of push, pop, nextDataSize, empty and clear calls on a CircularBuffer, the messages returned by successful pops are exactly the successfully pushed messages since the last clear, in push order, each with exactly the bytes pushed, none lost, duplicated or altered, however often the buffer wraps.", "quantifier": "every capacity, every initial memory content, every finite sequence of operations and every message content and length", "why_tests_cant": "the wrap-around positions depend on the whole history of message lengths; unit tests visit a handful of length patterns out of an unbounded set", "anchors": ["gmlc/containers/CircularBuffer.hpp::CircularBufferRaw::push", "gmlc/containers/CircularBuffer.hpp::CircularBufferRaw::pop", "gmlc/containers/CircularBuffer.hpp::CircularBufferRaw::nextDataSize", "gmlc/containers/CircularBuffer.hpp::CircularBufferRaw::clear"]}
{"id": "C02", "title": "CircularBuffer never touches memory outside its block", "statement": "No sequence of operations on a CircularBuffer reads or writes outside the memory block of the stated capacity.", "quantifier": "every capacity, every finite sequence of operations with any message lengths", "why_tests_cant": "an out-of-bounds write of a few bytes is silent in a unit test and only some length histories trigger it", "anchors": ["gmlc/containers/CircularBuffer.hpp::CircularBufferRaw::push", "gmlc/containers/CircularBuffer.hpp::CircularBufferRaw::pop", "gmlc/containers/CircularBuffer.hpp::CircularBufferRaw::nextDataSize"]}
{"id": "C03", "title": "CircularBuffer push succeeds exactly when isSpaceAvailable says so, and a refused push is invisible", "statement": "push(data,n) of a CircularBuffer returns true iff data is not null, n>0 and isSpaceAvailable(n) was true just before; when it returns false the contents, and hence all later results, are unchanged.", "quantifier": "every buffer state and every length including zero and negative", "why_tests_cant": "must hold in every reachable read/write pointer configuration", "anchors": ["gmlc/containers/CircularBuffer.hpp::CircularBufferRaw::push", "gmlc/containers/CircularBuffer.hpp::CircularBufferRaw::isSpaceAvailable"]}
{"id": "C04", "title": "CircularBuffer pop result code protocol", "statement": "pop(dst,max) returns 0 iff the buffer is empty; if the next message is longer than max it returns minus its length, writes nothing and keeps the message; otherwise it returns the length and removes just that message. nextDataSize returns the length of the message the next pop would return (0 if empty), and empty() is true iff there is no message.", "quantifier": "every buffer state reached by guarded histories and every max", "why_tests_cant": "depends on wrap markers that are only present in some histories", "anchors": ["gmlc/containers/CircularBuffer.hpp::CircularBufferRaw::pop", "gmlc/containers/CircularBuffer.hpp::CircularBufferRaw::nextDataSize", "gmlc/containers/CircularBuffer.hpp::CircularBufferRaw::empty"]}
{"id": "C05", "title": "CircularBuffer resize keeps every queued message or throws without effect", "statement": "resize(newsize) either throws and leaves the buffer as it was, or returns and the buffer then contains exactly the same messages in the same order with capacity newsize.", "quantifier": "every buffer state (linear or wrapped), every new size, larger or smaller", "why_tests_cant": "the relocation has four cases that depend on pointer order and on what fits; tests exercise a few sizes", "anchors": ["gmlc/containers/CircularBuffer.hpp::CircularBuffer::resize", "gmlc/containers/CircularBuffer.hpp::CircularBuffer::resizeMemory"]}
{"id": "C06", "title": "CircularBuffer copies are equal and independent, moves transfer", "statement": "After copy construction or copy assignment both buffers hold the same messages and later operations on one never affect the other; after a move the target holds the source's messages and the source is empty; destroying all buffers frees each block exactly once.", "quantifier": "every source and target state and every later sequence of operations on each object", "why_tests_cant": "aliasing faults show only for particular combinations of default-constructed, moved-from and copied objects", "anchors": ["gmlc/containers/CircularBuffer.hpp::CircularBuffer::CircularBuffer", "gmlc/containers/CircularBuffer.hpp::CircularBuffer::operator="]}
{"id": "C07", "title": "CircularBuffer accepts a message whenever it is empty and the message fits in the capacity", "statement": "If a CircularBuffer of capacity c is empty, isSpaceAvailable(n) is true for every message with n+4 <= c.", "quantifier": "every empty state reachable after any history and every n", "why_tests_cant": "the positions at which a buffer becomes empty are history dependent", "anchors": ["gmlc/containers/CircularBuffer.hpp::CircularBufferRaw::isSpaceAvailable"]}
{"id": "C08", "title": "Space freed by CircularBuffer pops becomes usable again", "statement": "A CircularBuffer whose producer only pushes when isSpaceAvailable allows never gets stuck: after all messages are popped, any message of up to about half the capacity can be pushed again, forever.", "quantifier": "every guarded history and every message with 2*(n+4) <= capacity+1", "why_tests_cant": "a liveness style claim over unbounded histories", "anchors": ["gmlc/containers/CircularBuffer.hpp::CircularBufferRaw::isSpaceAvailable", "gmlc/containers/CircularBuffer.hpp::CircularBufferRaw::push"]}
{"id": "C09", "title": "StackBuffer delivers messages last-in first-out, byte for byte, including after reverse", "statement": "In every sequence of push, pop, reverse, clear, nextDataSize, getCurrentCount calls the messages behave like a list used as a stack: push adds on top, pop takes the top, reverse reverses the whole order; every popped message has exactly the pushed bytes.", "quantifier": "every capacity, every initial memory content, every finite sequence of operations", "why_tests_cant": "reverse followed by pops leaves gaps in the storage, so correctness of later pushes depends on the whole history", "anchors": ["gmlc/containers/StackBuffer.hpp::StackBufferRaw::push", "gmlc/containers/StackBuffer.hpp::StackBufferRaw::pop", "gmlc/containers/StackBuffer.hpp::StackBufferRaw::reverse", "gmlc/containers/StackBuffer.hpp::StackBufferRaw::clear"]}
{"id": "C10", "title": "StackBuffer never touches memory outside its block", "statement": "No sequence of push, pop, reverse, clear, nextDataSize calls on a StackBuffer constructed with any size reads or writes outside its memory block.", "quantifier": "every capacity including 0..16, every finite sequence of operations", "why_tests_cant": "boundary sizes combine with every history", "anchors": ["gmlc/containers/StackBuffer.hpp::StackBufferRaw::push", "gmlc/containers/StackBuffer.hpp::StackBufferRaw::pop", "gmlc/containers/StackBuffer.hpp::StackBufferRaw::reverse"]}
{"id": "C11", "title": "StackBuffer push succeeds exactly when isSpaceAvailable says so, and a refused push is invisible", "statement": "push(data,n) returns true iff data is not null, n>0 and isSpaceAvailable(n) was true just before; when it returns false nothing changes.", "quantifier": "every state and every length including zero and negative", "why_tests_cant": "must hold in every reachable state", "anchors": ["gmlc/containers/StackBuffer.hpp::StackBufferRaw::push", "gmlc/containers/StackBuffer.hpp::StackBufferRaw::isSpaceAvailable"]}
{"id": "C12", "title": "StackBuffer pop result code protocol and message count", "statement": "pop(dst,max) returns 0 iff the buffer is empty; minus the length of the top message, with no effect, if it is longer than max; else its length, removing it. nextDataSize equals the length of the top message (0 if empty) and getCurrentCount is the number of messages.", "quantifier": "every reachable state and every max", "why_tests_cant": "ranges over all histories", "anchors": ["gmlc/containers/StackBuffer.hpp::StackBufferRaw::pop", "gmlc/containers/StackBuffer.hpp::StackBufferRaw::nextDataSize", "gmlc/containers/StackBuffer.hpp::StackBuffer::getCurrentCount"]}
{"id": "C13", "title": "StackBuffer resize keeps every message or throws without effect", "statement": "resize(n) either throws and leaves the buffer as it was, or returns and the same messages are still there in the same order.", "quantifier": "every state reachable by pushes, pops, reverses, resizes, every n", "why_tests_cant": "index relocation depends on number of messages and on spare capacity history", "anchors": ["gmlc/containers/StackBuffer.hpp::StackBuffer::resize", "gmlc/containers/StackBuffer.hpp::StackBuffer::resizeMemory"]}
{"id": "C14", "title": "A grown StackBuffer can store more messages", "statement": "After resize(n) to a larger size with messages present, a message that fits in the added space can be pushed.", "quantifier": "every state with messages, every larger n", "why_tests_cant": "tests never push after resizing a non-empty buffer", "anchors": ["gmlc/containers/StackBuffer.hpp::StackBuffer::resize", "gmlc/containers/StackBuffer.hpp::StackBufferRaw::isSpaceAvailable"]}
{"id": "C15", "title": "StackBuffer copies are equal and independent, moves and swap transfer", "statement": "After copy construction or assignment both hold the same messages and are independent; after a move the target holds the source's messages and the source is empty and usable again after resize; swap exchanges contents.", "quantifier": "every source and target state", "why_tests_cant": "moved-from and self-assigned objects combine with all histories", "anchors": ["gmlc/containers/StackBuffer.hpp::StackBuffer::StackBuffer", "gmlc/containers/StackBuffer.hpp::StackBuffer::operator=", "gmlc/containers/StackBuffer.hpp::StackBuffer::swap"]}
{"id": "C16", "title": "StackBuffer reclaims all space once empty", "statement": "Whenever a StackBuffer has become empty (by pops or clear) a message of length n can be pushed iff n+8 <= capacity, whatever the history, including reverses.", "quantifier": "every history ending in an empty buffer and every n", "why_tests_cant": "reversals leave gaps that must not leak", "anchors": ["gmlc/containers/StackBuffer.hpp::StackBufferRaw::pop", "gmlc/containers/StackBuffer.hpp::StackBufferRaw::clear", "gmlc/containers/StackBuffer.hpp::StackBufferRaw::isSpaceAvailable"]}
{"id": "C17", "title": "StableBlockVector behaves as a sequence", "statement": "For every history of push_back/emplace_back, pop_back, assign, clear, shrink_to_fit, size, empty, operator[], at, front, back on a StableBlockVector, results and contents equal those of a plain sequence.", "quantifier": "every block size exponent N, every element type, every finite history", "why_tests_cant": "block boundaries, recycled free blocks and slot array growth interact; unbounded histories", "anchors": ["gmlc/containers/StableBlockVector.hpp::StableBlockVector::emplace_back", "gmlc/containers/StableBlockVector.hpp::StableBlockVector::pop_back", "gmlc/containers/StableBlockVector.hpp::StableBlockVector::clear", "gmlc/containers/StableBlockVector.hpp::StableBlockVector::operator[]", "gmlc/containers/StableBlockVector.hpp::StableBlockVector::assign"]}
{"id": "C18", "title": "References into a StableBlockVector stay valid while the vector grows or shrinks elsewhere", "statement": "A pointer or reference to element i keeps denoting that element, at the same address and with the same value, through any sequence of push_back, pop_back that does not remove it, and shrink_to_fit.", "quantifier": "every N, element index and history that keeps element i alive", "why_tests_cant": "depends on slot array reallocation at 64, 128, ... blocks and free-block recycling", "anchors": ["gmlc/containers/StableBlockVector.hpp::StableBlockVector::blockCheck", "gmlc/containers/StableBlockVector.hpp::StableBlockVector::moveBlocktoAvailable", "gmlc/containers/StableBlockVector.hpp::StableBlockVector::operator[]"]}
{"id": "C19", "title": "StableBlockVector constructs and destroys each element exactly once and frees each block exactly once", "statement": "Over any history followed by destruction, each element cell is constructed before use and destroyed exactly once, no dead cell is read or destroyed, every allocated block is deallocated exactly once and never used afterwards.", "quantifier": "every N and every finite history of the container operations", "why_tests_cant": "leaks and double destruction are not observable for trivially destructible element types used in tests", "anchors": ["gmlc/containers/StableBlockVector.hpp::StableBlockVector::freeAll", "gmlc/containers/StableBlockVector.hpp::StableBlockVector::clear", "gmlc/containers/StableBlockVector.hpp::StableBlockVector::pop_back", "gmlc/containers/StableBlockVector.hpp::StableBlockVector::getNewBlock"]}
{"id": "C20", "title": "Iterating a StableBlockVector visits exactly its elements in order", "statement": "From begin(), repeatedly applying ++ reaches end() after exactly size() steps and dereferences yield element 0,1,...,size()-1.", "quantifier": "every N and every reachable vector", "why_tests_cant": "end() of exactly full blocks is a boundary state for each block count", "anchors": ["gmlc/containers/StableBlockVector.hpp::StableBlockVector::begin", "gmlc/containers/StableBlockVector.hpp::StableBlockVector::end", "gmlc/containers/BlockIterator.hpp::BlockIterator::operator++"]}
{"id": "C21", "title": "Copies of a StableBlockVector are equal, independent and fully usable", "statement": "After copy construction or copy assignment the two vectors have equal contents, share no block, and every later operation including destruction is well defined on each.", "quantifier": "every source vector, including emptied ones, every later history", "why_tests_cant": "the empty-after-use source is a state unit tests do not build", "anchors": ["gmlc/containers/StableBlockVector.hpp::StableBlockVector::StableBlockVector", "gmlc/containers/StableBlockVector.hpp::StableBlockVector::operator="]}
{"id": "C22", "title": "Moving a StableBlockVector transfers contents and leaves a usable empty vector", "statement": "After move construction or move assignment the target has the source's contents at the same addresses, and the source is empty and can be reused and destroyed.", "quantifier": "every source and target state", "why_tests_cant": "moved-from reuse combines with all histories", "anchors": ["gmlc/containers/StableBlockVector.hpp::StableBlockVector::StableBlockVector", "gmlc/containers/StableBlockVector.hpp::StableBlockVector::operator="]}
{"id": "C23", "title": "StableBlockVector checked access", "statement": "at(i) throws iff i >= size(), and otherwise returns element i; operator[] for i<size() returns element i; front/back return the first/last element of a non-empty vector; shrink_to_fit changes no observable.", "quantifier": "every reachable vector, every index", "why_tests_cant": "all sizes and histories", "anchors": ["gmlc/containers/StableBlockVector.hpp::StableBlockVector::at", "gmlc/containers/StableBlockVector.hpp::StableBlockVector::back", "gmlc/containers/StableBlockVector.hpp::StableBlockVector::front", "gmlc/containers/StableBlockVector.hpp::StableBlockVector::shrink_to_fit"]}
{"id": "C24", "title": "BlockIterator arithmetic is index arithmetic", "statement": "For an iterator at element i of a block sequence, it+n and n successive ++ both reach element i+n, it-n and n successive -- reach element i-n, and two iterators into the same sequence are equal iff they denote the same position.", "quantifier": "every block size, start position i, and n staying within [begin,end]", "why_tests_cant": "block boundary crossings happen at every multiple of the block size in both directions", "anchors": ["gmlc/containers/BlockIterator.hpp::BlockIterator::operator++", "gmlc/containers/BlockIterator.hpp::BlockIterator::operator--", "gmlc/containers/BlockIterator.hpp::BlockIterator::operator+", "gmlc/containers/BlockIterator.hpp::BlockIterator::operator+=", "gmlc/containers/BlockIterator.hpp::BlockIterator::check", "gmlc/containers/BlockIterator.hpp::BlockIterator::checkNeg"]}
{"id": "C25", "title": "BlockIterator accepts negative movements", "statement": "it += -n is the same as it -= n, and it -= -n the same as it += n (movement is a signed difference type).", "quantifier": "every block size, position and n in range", "why_tests_cant": "tests use non-negative movements only", "anchors": ["gmlc/containers/BlockIterator.hpp::BlockIterator::operator+=", "gmlc/containers/BlockIterator.hpp::BlockIterator::operator-="]}
{"id": "C26", "title": "StableBlockDeque behaves as a double-ended sequence", "statement": "For every history of push/emplace/pop at both ends, assign, clear, shrink_to_fit, size, empty, operator[], at, front, back on a default-constructed StableBlockDeque, results and contents equal those of a plain double-ended sequence.", "quantifier": "every block size exponent N>=1 and every finite history", "why_tests_cant": "front and back blocks, recentring of the slot array and recycled blocks interact; unbounded histories", "anchors": ["gmlc/containers/StableBlockDeque.hpp::StableBlockDeque::emplace_back", "gmlc/containers/StableBlockDeque.hpp::StableBlockDeque::emplace_front", "gmlc/containers/StableBlockDeque.hpp::StableBlockDeque::pop_back", "gmlc/containers/StableBlockDeque.hpp::StableBlockDeque::pop_front", "gmlc/containers/StableBlockDeque.hpp::StableBlockDeque::operator[]", "gmlc/containers/StableBlockDeque.hpp::StableBlockDeque::blockCheck", "gmlc/containers/StableBlockDeque.hpp::StableBlockDeque::blockCheckFront"]}
{"id": "C27", "title": "References into a StableBlockDeque stay valid across pushes and pops at either end", "statement": "A pointer to an element keeps denoting that element at the same address through any pushes and pops at either end that do not remove it.", "quantifier": "every N, element and history", "why_tests_cant": "recentring the slot array happens only at particular sizes", "anchors": ["gmlc/containers/StableBlockDeque.hpp::StableBlockDeque::blockCheck", "gmlc/containers/StableBlockDeque.hpp::StableBlockDeque::blockCheckFront"]}
{"id": "C28", "title": "StableBlockDeque constructs and destroys each element exactly once and frees each block exactly once", "statement": "Over any history followed by destruction, each element cell is constructed before use and destroyed exactly once, and each block is deallocated exactly once.", "quantifier": "every N and every finite history", "why_tests_cant": "invisible for trivially destructible types used in tests", "anchors": ["gmlc/containers/StableBlockDeque.hpp::StableBlockDeque::clear", "gmlc/containers/StableBlockDeque.hpp::StableBlockDeque::freeAll", "gmlc/containers/StableBlockDeque.hpp::StableBlockDeque::pop_front", "gmlc/containers/StableBlockDeque.hpp::StableBlockDeque::pop_back"]}
{"id": "C29", "title": "Iterating a StableBlockDeque visits exactly its elements in order", "statement": "From begin(), repeatedly applying ++ reaches end() after exactly size() steps and yields the elements front to back.", "quantifier": "every N and every reachable deque", "why_tests_cant": "boundary states at both ends", "anchors": ["gmlc/containers/StableBlockDeque.hpp::StableBlockDeque::begin", "gmlc/containers/StableBlockDeque.hpp::StableBlockDeque::end"]}
{"id": "C30", "title": "StableBlockDeque construction with a size, copies and moves give equal independent deques", "statement": "StableBlockDeque(n,x) has n elements equal to x and supports all operations; copies are equal and independent; a move transfers contents and leaves a usable empty deque.", "quantifier": "every n>=0, every source state", "why_tests_cant": "zero sized and copied-empty deques are states tests do not continue from", "anchors": ["gmlc/containers/StableBlockDeque.hpp::StableBlockDeque::StableBlockDeque", "gmlc/containers/StableBlockDeque.hpp::StableBlockDeque::operator="]}
{"id": "C31", "title": "StableBlockDeque checked access", "statement": "at(i) throws iff i >= size(), otherwise returns element i; front/back return first/last element of a non-empty deque.", "quantifier": "every reachable deque, every index", "why_tests_cant": "all sizes and histories", "anchors": ["gmlc/containers/StableBlockDeque.hpp::StableBlockDeque::at", "gmlc/containers/StableBlockDeque.hpp::StableBlockDeque::back", "gmlc/containers/StableBlockDeque.hpp::StableBlockDeque::front"]}
{"id": "C32", "title": "StableBlockDeque slot array stays within bounds", "statement": "No push at either end ever indexes the array of block pointers outside its allocated range, whatever mixture of front and back pushes and pops happened.", "quantifier": "every N>=1 and every finite history", "why_tests_cant": "recentring arithmetic has unboundedly many configurations", "anchors": ["gmlc/containers/StableBlockDeque.hpp::StableBlockDeque::blockCheck", "gmlc/containers/StableBlockDeque.hpp::StableBlockDeque::blockCheckFront"]}
{"id": "C33", "title": "MappedVector insert, find and insert_or_assign agree with an ordered association", "statement": "For every history of insert, insert_or_assign, find, indexing, clear on a MappedVector: insert under an unused key appends and makes find(key) yield that element; insert under a used key returns nothing and changes nothing; insert_or_assign under a used key replaces that element in place; other keys and indices are unaffected.", "quantifier": "every history, key and value", "why_tests_cant": "quantifies over all key sets and orders", "anchors": ["gmlc/containers/MappedVector.hpp::MappedVector::insert", "gmlc/containers/MappedVector.hpp::MappedVector::insert_or_assign", "gmlc/containers/MappedVector.hpp::MappedVector::find", "gmlc/containers/MappedVector.hpp::MappedVector::clear"]}
{"id": "C34", "title": "MappedVector removal keeps every other key attached to its own element", "statement": "After remove(key) or removeIndex(i), every remaining key still finds the element it was bound to, the removed element's keys find nothing, the other elements keep their order, and an absent key or out of range index changes nothing.", "quantifier": "every history including keyless insertions and additional search terms, every key and index", "why_tests_cant": "depends on index shifting over arbitrary key sets", "anchors": ["gmlc/containers/MappedVector.hpp::MappedVector::remove", "gmlc/containers/MappedVector.hpp::MappedVector::removeIndex", "gmlc/containers/MappedVector.hpp::MappedVector::addSearchTermForIndex", "gmlc/containers/MappedVector.hpp::MappedVector::addSearchTerm"]}
{"id": "C35", "title": "MappedVector lookups are never out of range", "statement": "In every reachable state each key known to the container maps to an index smaller than size().", "quantifier": "every history of the public operations", "why_tests_cant": "stale index entries appear only after particular histories", "anchors": ["gmlc/containers/MappedVector.hpp::MappedVector::find", "gmlc/containers/MappedVector.hpp::MappedVector::removeIndex", "gmlc/containers/MappedVector.hpp::MappedVector::remove"]}
{"id": "C36", "title": "MappedVector with stable storage keeps element positions on removal", "statement": "With the stable storage option, removal never moves or reorders remaining elements: the element is physically removed only if it is last; all other indices keep their element; its key is no longer found.", "quantifier": "every history, key and index", "why_tests_cant": "all histories", "anchors": ["gmlc/containers/MappedVector.hpp::MappedVector::removeIndex", "gmlc/containers/MappedVector.hpp::MappedVector::remove"]}
{"id": "C37", "title": "MappedVector transform and apply visit every element once in order and keep keys", "statement": "apply calls the function on each element once in index order; transform replaces each element by the function's result and leaves every key bound to the same index; modify changes only the addressed element.", "quantifier": "every state and every function", "why_tests_cant": "all states", "anchors": ["gmlc/containers/MappedVector.hpp::MappedVector::apply", "gmlc/containers/MappedVector.hpp::MappedVector::transform"]}
{"id": "C38", "title": "MappedPointerVector owns one object per element and keeps keys attached", "statement": "insert under an unused key appends, under a used key changes nothing; find returns the object bound to the key or null; operator[] returns null exactly for out of range indices; removal destroys exactly that object and keeps all other keys attached to their objects; object addresses never change while stored.", "quantifier": "every history, key and index", "why_tests_cant": "all histories", "anchors": ["gmlc/containers/MappedPointerVector.hpp::MappedPointerVector::insert", "gmlc/containers/MappedPointerVector.hpp::MappedPointerVector::insert_or_assign", "gmlc/containers/MappedPointerVector.hpp::MappedPointerVector::find", "gmlc/containers/MappedPointerVector.hpp::MappedPointerVector::remove", "gmlc/containers/MappedPointerVector.hpp::MappedPointerVector::removeIndex"]}
{"id": "C39", "title": "StringMappedVector keys always refer to live strings owned by the same container", "statement": "In every reachable state of one StringMappedVector each lookup key refers to a string stored in that same container with that content, so find(name) returns the element inserted under that name.", "quantifier": "every history of insert, insert_or_assign, addSearchTerm, find, clear, and copies", "why_tests_cant": "dangling string_view keys still compare equal by accident in tests", "anchors": ["gmlc/containers/StringMappedVector.hpp::StringMappedVector::insert", "gmlc/containers/StringMappedVector.hpp::StringMappedVector::find", "gmlc/containers/StringMappedVector.hpp::StringMappedVector::clear", "gmlc/containers/StringMappedVector.hpp::StringMappedVector::addSearchTerm"]}
{"id": "C40", "title": "DualMappedVector insertion binds both keys to the new element", "statement": "A successful insert(k1,k2,x) appends x and afterwards both find(k1) and find(k2) yield x; insert fails iff both keys are already present, and then changes nothing.", "quantifier": "every history and keys", "why_tests_cant": "all combinations of present and absent keys", "anchors": ["gmlc/containers/DualMappedVector.hpp::DualMappedVector::insert", "gmlc/containers/DualMappedVector.hpp::DualMappedVector::find"]}
{"id": "C41", "title": "DualMappedVector removal keeps every other key of both kinds attached to its own element", "statement": "After remove(k1), remove(k2) or removeIndex(i) all keys of the removed element are gone and every other key still finds its element.", "quantifier": "every history, key and index", "why_tests_cant": "all histories", "anchors": ["gmlc/containers/DualMappedVector.hpp::DualMappedVector::remove", "gmlc/containers/DualMappedVector.hpp::DualMappedVector::removeIndex"]}
{"id": "C42", "title": "DualMappedVector insert_or_assign", "statement": "insert_or_assign(k1,k2,x) makes both find(k1) and find(k2) yield x and changes no element or key other than those found under k1 and k2.", "quantifier": "every state and keys", "why_tests_cant": "all key combinations", "anchors": ["gmlc/containers/DualMappedVector.hpp::DualMappedVector::insert_or_assign"]}
{"id": "C43", "title": "DualStringMappedVector insertion binds both keys to the new element", "statement": "A successful insert(name,k2,x) makes find(name) and find(k2) yield x; other keys are unaffected.", "quantifier": "every history and keys", "why_tests_cant": "all combinations of present and absent keys", "anchors": ["gmlc/containers/DualStringMappedVector.hpp::DualStringMappedVector::insert", "gmlc/containers/DualStringMappedVector.hpp::DualStringMappedVector::find"]}
{"id": "C44", "title": "DualMappedPointerVector insertion and removal keep keys attached to their objects", "statement": "A successful insert(k1,k2,p) makes both keys find p; removal by either key or by index removes exactly that object together with its keys and leaves every other key attached to its object.", "quantifier": "every history and keys", "why_tests_cant": "all combinations of present and absent keys", "anchors": ["gmlc/containers/DualMappedPointerVector.hpp::DualMappedPointerVector::insert", "gmlc/containers/DualMappedPointerVector.hpp::DualMappedPointerVector::remove", "gmlc/containers/DualMappedPointerVector.hpp::DualMappedPointerVector::removeIndex"]}
{"id": "C45", "title": "SimpleQueue is linearizable as a FIFO queue", "statement": "Every concurrent history of push, emplace, pushVector, pop, peek, size, empty, clear calls by any number of threads on a SimpleQueue is equivalent to a sequential FIFO queue history that respects real-time order.", "quantifier": "every number of threads, every operations per thread, every interleaving of their atomic steps", "why_tests_cant": "interleavings are unbounded and schedule dependent", "anchors": ["gmlc/containers/SimpleQueue.hpp::SimpleQueue::push", "gmlc/containers/SimpleQueue.hpp::SimpleQueue::pushVector", "gmlc/containers/SimpleQueue.hpp::SimpleQueue::emplace", "gmlc/containers/SimpleQueue.hpp::SimpleQueue::pop", "gmlc/containers/SimpleQueue.hpp::SimpleQueue::peek", "gmlc/containers/SimpleQueue.hpp::SimpleQueue::checkPullandSwap", "gmlc/containers/SimpleQueue.hpp::SimpleQueue::size", "gmlc/containers/SimpleQueue.hpp::SimpleQueue::clear", "gmlc/containers/SimpleQueue.hpp::SimpleQueue::empty"]}
{"id": "C46", "title": "SimpleQueue never deadlocks", "statement": "In every reachable state in which some thread has an unfinished call on a SimpleQueue, some thread can take a step; no thread waits for a lock forever because of a cyclic wait.", "quantifier": "every number of threads and interleaving", "why_tests_cant": "deadlocks need precise interleavings", "anchors": ["gmlc/containers/SimpleQueue.hpp::SimpleQueue::push", "gmlc/containers/SimpleQueue.hpp::SimpleQueue::checkPullandSwap", "gmlc/containers/SimpleQueue.hpp::SimpleQueue::clear"]}
{"id": "C47", "title": "SimpleQueue accesses its two element vectors only under the matching lock", "statement": "At every moment at most one thread is at a step that reads or writes the push side storage, and likewise for the pull side, so there are no data races on them.", "quantifier": "every reachable state and every pair of threads", "why_tests_cant": "data races are schedule dependent", "anchors": ["gmlc/containers/SimpleQueue.hpp::SimpleQueue"]}
{"id": "C48", "title": "SimpleQueue conserves elements", "statement": "Every element pushed is popped at most once; at any quiescent moment the elements pushed minus those popped or cleared are exactly the queue content in push order.", "quantifier": "every interleaving and history", "why_tests_cant": "unbounded", "anchors": ["gmlc/containers/SimpleQueue.hpp::SimpleQueue::push", "gmlc/containers/SimpleQueue.hpp::SimpleQueue::pop"]}
{"id": "C49", "title": "Moving a SimpleQueue transfers its contents and leaves an empty queue", "statement": "After move construction or assignment the target contains the source's elements in order, and the source reports empty()==true and size()==0.", "quantifier": "every source state", "why_tests_cant": "states with both internal sides populated", "anchors": ["gmlc/containers/SimpleQueue.hpp::SimpleQueue::SimpleQueue", "gmlc/containers/SimpleQueue.hpp::SimpleQueue::operator="]}
{"id": "C50", "title": "BlockingQueue push and pop operations are linearizable as a FIFO queue", "statement": "Every concurrent history of push, emplace, try_pop, pop, timed pop, popOrCall and clear calls on a BlockingQueue is equivalent to a sequential FIFO queue history respecting real-time order; in particular nothing is lost or duplicated and try_pop returns nothing only if the queue is empty at some moment during the call.", "quantifier": "every number of threads, every interleaving, spurious wake-ups and timeouts included", "why_tests_cant": "interleavings are unbounded and schedule dependent", "anchors": ["gmlc/containers/BlockingQueue.hpp::BlockingQueue::push", "gmlc/containers/BlockingQueue.hpp::BlockingQueue::emplace", "gmlc/containers/BlockingQueue.hpp::BlockingQueue::pop", "gmlc/containers/BlockingQueue.hpp::BlockingQueue::popOrCall", "gmlc/containers/BlockingQueue.hpp::BlockingQueue::try_pop", "gmlc/containers/BlockingQueue.hpp::BlockingQueue::checkPullAndSwap", "gmlc/containers/BlockingQueue.hpp::BlockingQueue::clear"]}
{"id": "C51", "title": "BlockingQueue never loses a wake-up", "statement": "A thread blocked in pop() while the queue holds an element has a notification on its way: no reachable state has a consumer waiting, an element in the queue and no producer about to notify.", "quantifier": "every number of producers and consumers and every interleaving", "why_tests_cant": "lost wake-ups need precise interleavings", "anchors": ["gmlc/containers/BlockingQueue.hpp::BlockingQueue::push", "gmlc/containers/BlockingQueue.hpp::BlockingQueue::pop", "gmlc/containers/BlockingQueue.hpp::BlockingQueue::popOrCall", "gmlc/containers/BlockingQueue.hpp::BlockingQueue::try_pop"]}
{"id": "C52", "title": "BlockingQueue size and empty are consistent with its contents", "statement": "size() and empty() take effect atomically: the value returned is the size (emptiness) of the FIFO queue at some moment during the call, consistently with all other operations.", "quantifier": "every interleaving and every sequential history", "why_tests_cant": "schedule and history dependent", "anchors": ["gmlc/containers/BlockingQueue.hpp::BlockingQueue::size", "gmlc/containers/BlockingQueue.hpp::BlockingQueue::empty"]}
{"id": "C53", "title": "BlockingQueue try_peek shows the next element to be popped", "statement": "try_peek returns the element the next try_pop by the same thread with no interference would return, and nothing iff the queue is empty, provided no call throws (for those see C78).", "quantifier": "every sequential history", "why_tests_cant": "history dependent internal split of elements", "anchors": ["gmlc/containers/BlockingQueue.hpp::BlockingQueue::try_peek", "gmlc/containers/BlockingQueue.hpp::BlockingQueue::pop"]}
{"id": "C54", "title": "BlockingQueue locks cannot deadlock and protect the element vectors", "statement": "In every reachable state with an unfinished call that is not waiting for an element, some thread can step; at most one thread accesses each internal vector at a time.", "quantifier": "every number of threads and interleaving", "why_tests_cant": "deadlocks and races need precise interleavings", "anchors": ["gmlc/containers/BlockingQueue.hpp::BlockingQueue"]}
{"id": "C55", "title": "Moving a BlockingQueue transfers contents and status", "statement": "After a move the target holds the source's elements in order and empty() of the target is true iff it holds no elements.", "quantifier": "every source state", "why_tests_cant": "the split of elements between internal vectors is history dependent", "anchors": ["gmlc/containers/BlockingQueue.hpp::BlockingQueue::BlockingQueue", "gmlc/containers/BlockingQueue.hpp::BlockingQueue::operator="]}
{"id": "C56", "title": "BlockingPriorityQueue is linearizable as a two level FIFO queue", "statement": "Every concurrent history of push, emplace, pushPriority, emplacePriority, try_pop, pop, timed pop, popOrCall, clear is equivalent to a sequential two level queue history: a pop returns the oldest priority element if there is one, else the oldest normal element.", "quantifier": "every number of threads and every interleaving", "why_tests_cant": "unbounded interleavings", "anchors": ["gmlc/containers/BlockingPriorityQueue.hpp::BlockingPriorityQueue::push", "gmlc/containers/BlockingPriorityQueue.hpp::BlockingPriorityQueue::pushPriority", "gmlc/containers/BlockingPriorityQueue.hpp::BlockingPriorityQueue::try_pop", "gmlc/containers/BlockingPriorityQueue.hpp::BlockingPriorityQueue::pop", "gmlc/containers/BlockingPriorityQueue.hpp::BlockingPriorityQueue::popOrCall", "gmlc/containers/BlockingPriorityQueue.hpp::BlockingPriorityQueue::emplacePriority"]}
{"id": "C57", "title": "BlockingPriorityQueue never loses a wake-up", "statement": "No reachable state has a consumer waiting in pop(), an element in the queue, and no producer about to notify.", "quantifier": "every number of producers and consumers and every interleaving", "why_tests_cant": "lost wake-ups need precise interleavings", "anchors": ["gmlc/containers/BlockingPriorityQueue.hpp::BlockingPriorityQueue::push", "gmlc/containers/BlockingPriorityQueue.hpp::BlockingPriorityQueue::pushPriority", "gmlc/containers/BlockingPriorityQueue.hpp::BlockingPriorityQueue::pop"]}
{"id": "C58", "title": "BlockingPriorityQueue empty and try_peek are consistent with its contents", "statement": "In every quiescent state empty() is true iff the queue holds no element and try_peek returns the element the next try_pop would return.", "quantifier": "every sequential history", "why_tests_cant": "history dependent", "anchors": ["gmlc/containers/BlockingPriorityQueue.hpp::BlockingPriorityQueue::empty", "gmlc/containers/BlockingPriorityQueue.hpp::BlockingPriorityQueue::try_peek"]}
{"id": "C59", "title": "BlockingPriorityQueue locks cannot deadlock and protect the element vectors", "statement": "In every reachable state with an unfinished call that is not waiting for an element, some thread can step; at most one thread accesses each internal vector at a time.", "quantifier": "every number of threads and interleaving", "why_tests_cant": "deadlocks and races need precise interleavings", "anchors": ["gmlc/containers/BlockingPriorityQueue.hpp::BlockingPriorityQueue"]}
{"id": "C60", "title": "AirLock is a linearizable one-slot exchange", "statement": "Every concurrent history of try_load, load, try_unload, isLoaded is equivalent to a sequential one-slot buffer history: try_load succeeds iff the slot is empty, a full slot is never overwritten, each loaded value is unloaded at most once.", "quantifier": "every number of threads and every interleaving including spurious wake-ups", "why_tests_cant": "unbounded interleavings", "anchors": ["gmlc/containers/AirLock.hpp::AirLock::try_load", "gmlc/containers/AirLock.hpp::AirLock::load", "gmlc/containers/AirLock.hpp::AirLock::try_unload", "gmlc/containers/AirLock.hpp::AirLock::isLoaded"]}
{"id": "C61", "title": "AirLock never loses a wake-up", "statement": "No reachable state has the slot empty, a thread waiting in load, and no loader woken or about to be notified.", "quantifier": "every number of loaders and unloaders and every interleaving; loads do not throw (C102 otherwise), other calls may", "why_tests_cant": "lost wake-ups need precise interleavings", "anchors": ["gmlc/containers/AirLock.hpp::AirLock::load", "gmlc/containers/AirLock.hpp::AirLock::try_unload"]}
{"id": "C62", "title": "AirLock cannot deadlock", "statement": "In every reachable state with an unfinished call that is not waiting for the slot, some thread can step; the stored value is accessed only under the lock.", "quantifier": "every number of threads and interleaving", "why_tests_cant": "needs precise interleavings", "anchors": ["gmlc/containers/AirLock.hpp::AirLock"]}
{"id": "C63", "title": "WorkQueue executes each accepted work block exactly once", "statement": "Every unfinished, non-null block given to addWorkBlock is fetched by at most one worker; if the queue is drained before it is closed it is executed exactly once; with zero workers it is executed inside the call.", "quantifier": "every number of workers, blocks, priorities and every interleaving", "why_tests_cant": "unbounded interleavings", "anchors": ["gmlc/containers/WorkQueue.hpp::WorkQueue::addWorkBlock", "gmlc/containers/WorkQueue.hpp::WorkQueue::getWorkBlock", "gmlc/containers/WorkQueue.hpp::WorkQueue::workerLoop"]}
{"id": "C64", "title": "WorkQueue priority order", "statement": "getWorkBlock returns a high priority block whenever one is queued; otherwise after priorityRatio consecutive medium fetches a queued low block is returned before the next medium one; otherwise medium before low; blocks of one priority are fetched in submission order.", "quantifier": "every queue content, ratio and fetch history", "why_tests_cant": "unbounded histories", "anchors": ["gmlc/containers/WorkQueue.hpp::WorkQueue::getWorkBlock", "gmlc/containers/WorkQueue.hpp::WorkQueue::setPriorityRatio"]}
{"id": "C65", "title": "WorkQueue never starves low priority work", "statement": "While low priority blocks are queued and no high priority block arrives, a low priority block is fetched within priorityRatio+1 fetches, for every fetch history.", "quantifier": "every fetch history of any length", "why_tests_cant": "needs unboundedly long histories (counter overflow)", "anchors": ["gmlc/containers/WorkQueue.hpp::WorkQueue::getWorkBlock"]}
{"id": "C66", "title": "Closing a WorkQueue terminates every worker", "statement": "After closeWorkerQueue has set the halt flag, no worker can block forever: in every reachable state every worker has exited or can still make progress without further submissions, so the joins return; no block is executed twice.", "quantifier": "every number of workers and every interleaving", "why_tests_cant": "shutdown races are schedule dependent", "anchors": ["gmlc/containers/WorkQueue.hpp::WorkQueue::closeWorkerQueue", "gmlc/containers/WorkQueue.hpp::WorkQueue::workerLoop"]}
{"id": "C67", "title": "Work added to a WorkQueue wakes an idle worker", "statement": "When a block is added while a worker is idle the worker is notified; no schedule leaves a block queued while every worker sleeps until its timeout.", "quantifier": "every interleaving of addWorkBlock and the worker loop", "why_tests_cant": "needs a precise interleaving", "anchors": ["gmlc/containers/WorkQueue.hpp::WorkQueue::addWorkBlock", "gmlc/containers/WorkQueue.hpp::WorkQueue::workerLoop"]}
{"id": "C68", "title": "A work block runs its function exactly once until reset", "statement": "execute runs the stored function iff the block is not finished; isFinished is true exactly after an execution since construction or the last reset/update; getReturnVal yields the value of that execution, and so does a future obtained before it; reset, updateTask and updateWorkFunction make it runnable again. Tasks handed to updateTask are new ones: with a function, not run, future not taken.", "quantifier": "every history of execute, reset, updateTask, updateWorkFunction, isFinished, getReturnVal on a block made from a function or a packaged_task, and every function (results may be values or exceptions)", "why_tests_cant": "all call histories", "anchors": ["gmlc/containers/WorkQueue.hpp::WorkBlock::execute", "gmlc/containers/WorkQueue.hpp::WorkBlock::reset", "gmlc/containers/WorkQueue.hpp::WorkBlock::updateTask", "gmlc/containers/WorkQueue.hpp::WorkBlock::updateWorkFunction", "gmlc/containers/WorkQueue.hpp::WorkBlock::isFinished"]}
{"id": "C69", "title": "mapFind returns the mapped value or the default", "statement": "mapFind(map,key,default) returns the value stored under key if present and default otherwise, without changing the map.", "quantifier": "every map, key and default", "why_tests_cant": "all maps", "anchors": ["gmlc/containers/mapOps.hpp::mapFind"]}
{"id": "C70", "title": "StackBuffer stores messages without waste when never reversed", "statement": "In histories without reverse every stored message costs exactly its length plus 8 bytes: isSpaceAvailable(n) is true iff the stored lengths, 8 bytes per stored message and n+8 fit in the capacity.", "quantifier": "every capacity and every finite history without reverse, every n", "why_tests_cant": "exact accounting over unbounded histories", "anchors": ["gmlc/containers/StackBuffer.hpp::StackBufferRaw::isSpaceAvailable", "gmlc/containers/StackBuffer.hpp::StackBufferRaw::pop"]}
{"id": "C71", "title": "Moving a BlockingPriorityQueue transfers contents and status", "statement": "After a move the target holds the source's priority and normal elements in order and behaves as a two level queue with these contents, empty() of the target is true iff it holds no elements, and the source behaves as an empty queue.", "quantifier": "every source state without calls in progress, every history afterwards", "why_tests_cant": "the split of elements between internal containers is history dependent", "anchors": ["gmlc/containers/BlockingPriorityQueue.hpp::BlockingPriorityQueue::BlockingPriorityQueue", "gmlc/containers/BlockingPriorityQueue.hpp::BlockingPriorityQueue::operator="]}
{"id": "C72", "title": "WorkQueue observers report the queue", "statement": "getWorkerCount returns the number of worker threads until the queue is closed and 0 from then on; isEmpty returns true only if there was a moment during the call with no queued block and false only if there was a moment with one; numBlock returns the number of blocks queued at some moment during the call; none of them changes the queue.", "quantifier": "every number of workers, every history and interleaving", "why_tests_cant": "needs every interleaving of observers with additions and fetches", "anchors": ["gmlc/containers/WorkQueue.hpp::WorkQueue::getWorkerCount", "gmlc/containers/WorkQueue.hpp::WorkQueue::isEmpty", "gmlc/containers/WorkQueue.hpp::WorkQueue::numBlock"]}
{"id": "C73", "title": "A closed WorkQueue executes nothing", "statement": "Once closeWorkerQueue of a queue with workers has returned, all its workers have exited and no work block is executed by the queue any more, whatever calls follow.", "quantifier": "every number of workers >= 1, every interleaving, every later history", "why_tests_cant": "shutdown races are schedule dependent", "anchors": ["gmlc/containers/WorkQueue.hpp::WorkQueue::closeWorkerQueue", "gmlc/containers/WorkQueue.hpp::WorkQueue::workerLoop"]}
{"id": "C74", "title": "Copies and moves of mapped vectors", "statement": "A copy of a MappedVector or DualMappedVector, made by copy construction or assignment, has the elements and search terms of the original; afterwards the two are independent: no call on one changes what a call on the other returns. A move transfers elements and search terms to the target; the moved-from container can be destroyed or assigned to. Destroying all containers releases all their memory exactly once.", "quantifier": "every number of objects, every interleaving of copies, moves, assignments, destructions and calls, both storage kinds, every block order, every iteration order of the maps and every state a moved-from map may be left in", "why_tests_cant": "histories over several objects and all states of moved-from library containers", "anchors": ["gmlc/containers/MappedVector.hpp::MappedVector", "gmlc/containers/DualMappedVector.hpp::DualMappedVector", "gmlc/containers/StableBlockVector.hpp::StableBlockVector"]}
{"id": "C75", "title": "Moves of mapped pointer vectors", "statement": "A move of a MappedPointerVector or DualMappedPointerVector transfers its elements with their objects and search terms: every pointer to an element's object stays valid and the target finds the same object for every search term. The moved-from container is empty and can be destroyed, assigned to or cleared and used again. Every object belongs to exactly one element of exactly one container and is destroyed exactly when that element goes; when all containers are gone no object is left.", "quantifier": "every number of containers, every interleaving of moves, move assignments, destructions and calls, every iteration order of the maps and every state a moved-from map may be left in", "why_tests_cant": "histories over several objects and all states of moved-from library containers", "anchors": ["gmlc/containers/MappedPointerVector.hpp::MappedPointerVector", "gmlc/containers/DualMappedPointerVector.hpp::DualMappedPointerVector"]}
{"id": "C76", "title": "Assigning a range of one block container to another", "statement": "Calling assign with a range of elements of another StableBlockVector or StableBlockDeque gives the target exactly the elements of the range and leaves the source unchanged. With move_assign the target also has exactly the old elements of the range, and of the source only the elements in the range change, to what moving leaves in them. The range may lie in the container itself, in which case the container keeps just the elements of the range. No element is leaked or destroyed twice.", "quantifier": "every number of containers, every history of calls before and after, every range, every relation between the sizes of the range and of the target, whatever moving leaves behind", "why_tests_cant": "tests can only try a few ranges; the source may be read while the target is written", "anchors": ["gmlc/containers/StableBlockVector.hpp::StableBlockVector::assign", "gmlc/containers/StableBlockVector.hpp::StableBlockVector::move_assign", "gmlc/containers/StableBlockDeque.hpp::StableBlockDeque::assign", "gmlc/containers/StableBlockDeque.hpp::StableBlockDeque::move_assign"]}
{"id": "C77", "title": "SimpleQueue: exceptions", "statement": "If constructing, copying or moving an element (or allocating memory for it) throws during push, emplace, pushVector, pop or peek, the exception reaches the caller, the call has no effect on the queue, the locks are released, and all other calls behave as if the failed call had not been made.", "quantifier": "every history, every set of calls that throw, every number of threads and every interleaving", "why_tests_cant": "every call is a potential failure point and the failure can fall into any interleaving with other calls", "anchors": ["gmlc/containers/SimpleQueue.hpp::SimpleQueue::push", "gmlc/containers/SimpleQueue.hpp::SimpleQueue::pushVector", "gmlc/containers/SimpleQueue.hpp::SimpleQueue::emplace", "gmlc/containers/SimpleQueue.hpp::SimpleQueue::pop", "gmlc/containers/SimpleQueue.hpp::SimpleQueue::peek"]}
{"id": "C78", "title": "BlockingQueue: exceptions in insertions", "statement": "If constructing an element (or allocating memory for it) throws during push or emplace, the exception reaches the caller, the call has no effect on the queue, the locks are released, and all other calls behave as if the failed call had not been made: elements are delivered in order, empty() and try_peek answer as before, and a waiting consumer is woken by the next successful insertion.", "quantifier": "every history, every set of insertions that throw, every number of threads and every interleaving", "why_tests_cant": "every insertion is a potential failure point and the failure can fall into any interleaving with other calls", "anchors": ["gmlc/containers/BlockingQueue.hpp::BlockingQueue::push", "gmlc/containers/BlockingQueue.hpp::BlockingQueue::emplace", "gmlc/containers/BlockingQueue.hpp::BlockingQueue::pop"]}
{"id": "C79", "title": "BlockingPriorityQueue: exceptions in insertions", "statement": "If constructing an element (or allocating memory for it) throws during push, emplace, pushPriority or emplacePriority, the exception reaches the caller, the call has no effect on the queue, the locks are released, and all other calls behave as if the failed call had not been made: elements are delivered in order, empty() and try_peek answer as before, and a waiting consumer is woken by the next successful insertion.", "quantifier": "every history, every set of insertions that throw, every number of threads and every interleaving", "why_tests_cant": "every insertion is a potential failure point and the failure can fall into any interleaving with other calls", "anchors": ["gmlc/containers/BlockingPriorityQueue.hpp::BlockingPriorityQueue::push", "gmlc/containers/BlockingPriorityQueue.hpp::BlockingPriorityQueue::emplace", "gmlc/containers/BlockingPriorityQueue.hpp::BlockingPriorityQueue::pushPriority", "gmlc/containers/BlockingPriorityQueue.hpp::BlockingPriorityQueue::emplacePriority", "gmlc/containers/BlockingPriorityQueue.hpp::BlockingPriorityQueue::pop"]}
{"id": "C80", "title": "StableBlockVector: insertions without memory", "statement": "If an allocation (of a block or of the internal array) fails during emplace_back or push_back, the exception reaches the caller, all vectors have the elements they had at the addresses they had, every later call behaves as if the failed call had not been made, and once all vectors are destroyed all memory has been released.", "quantifier": "every history of calls on any number of objects, every set of insertions that fail and every allocation at which they fail, every block size", "why_tests_cant": "every insertion at a block boundary is a failure point and what it leaves behind may show only many calls later, or when the object is destroyed", "anchors": ["gmlc/containers/StableBlockVector.hpp::StableBlockVector::emplace_back", "gmlc/containers/StableBlockVector.hpp::StableBlockVector::push_back", "gmlc/containers/StableBlockVector.hpp::StableBlockVector::blockCheck", "gmlc/containers/StableBlockVector.hpp::StableBlockVector::getNewBlock"]}
{"id": "C81", "title": "StableBlockVector: insertions whose element throws", "statement": "If the constructor of the element throws during emplace_back or push_back, the vector is unchanged: size, elements, addresses and iteration are as before, it can be inserted into, cleared and destroyed, and only elements that exist are destroyed.", "quantifier": "every history of calls on any number of objects, every insertion that throws, every block size", "why_tests_cant": "every insertion is a failure point and what it leaves behind may show only many calls later, or when the object is destroyed", "anchors": ["gmlc/containers/StableBlockVector.hpp::StableBlockVector::emplace_back", "gmlc/containers/StableBlockVector.hpp::StableBlockVector::push_back", "gmlc/containers/StableBlockVector.hpp::StableBlockVector::blockCheck", "gmlc/containers/StableBlockVector.hpp::StableBlockVector::getNewBlock"]}
{"id": "C82", "title": "StableBlockVector: assignments that throw", "statement": "If assigning to or constructing an element throws during assign or move_assign, the vector is in a valid state: the elements before the one that threw have the new values, those after it their old values, and every later call works.", "quantifier": "every history of calls on any number of objects, every range, every element at which the assignment throws, every block size", "why_tests_cant": "every element of every range is a failure point", "anchors": ["gmlc/containers/StableBlockVector.hpp::StableBlockVector::assign", "gmlc/containers/StableBlockVector.hpp::StableBlockVector::move_assign"]}
{"id": "C83", "title": "StableBlockDeque: insertions without memory", "statement": "If an allocation (of a block or of the internal array) fails during emplace_back, push_back, emplace_front or push_front, the exception reaches the caller, all deques have the elements they had at the addresses they had, every later call behaves as if the failed call had not been made, and once all deques are destroyed all memory has been released.", "quantifier": "every history of calls on any number of objects, every set of insertions that fail and every allocation at which they fail, every block size", "why_tests_cant": "every insertion at a block boundary is a failure point and what it leaves behind may show only many calls later, or when the object is destroyed", "anchors": ["gmlc/containers/StableBlockDeque.hpp::StableBlockDeque::emplace_back", "gmlc/containers/StableBlockDeque.hpp::StableBlockDeque::push_back", "gmlc/containers/StableBlockDeque.hpp::StableBlockDeque::emplace_front", "gmlc/containers/StableBlockDeque.hpp::StableBlockDeque::push_front", "gmlc/containers/StableBlockDeque.hpp::StableBlockDeque::blockCheck", "gmlc/containers/StableBlockDeque.hpp::StableBlockDeque::blockCheckFront", "gmlc/containers/StableBlockDeque.hpp::StableBlockDeque::getNewBlock"]}
{"id": "C84", "title": "StableBlockDeque: insertions whose element throws", "statement": "If the constructor of the element throws during emplace_back, push_back, emplace_front or push_front, the deque is unchanged: size, elements, addresses and iteration are as before, it can be inserted into, cleared and destroyed, and only elements that exist are destroyed.", "quantifier": "every history of calls on any number of objects, every insertion that throws, every block size", "why_tests_cant": "every insertion is a failure point and what it leaves behind may show only many calls later, or when the object is destroyed", "anchors": ["gmlc/containers/StableBlockDeque.hpp::StableBlockDeque::emplace_back", "gmlc/containers/StableBlockDeque.hpp::StableBlockDeque::push_back", "gmlc/containers/StableBlockDeque.hpp::StableBlockDeque::emplace_front", "gmlc/containers/StableBlockDeque.hpp::StableBlockDeque::push_front", "gmlc/containers/StableBlockDeque.hpp::StableBlockDeque::blockCheck", "gmlc/containers/StableBlockDeque.hpp::StableBlockDeque::blockCheckFront", "gmlc/containers/StableBlockDeque.hpp::StableBlockDeque::getNewBlock"]}
{"id": "C85", "title": "StableBlockDeque: assignments that throw", "statement": "If assigning to or constructing an element throws during assign or move_assign, the deque is in a valid state: the elements before the one that threw have the new values, those after it their old values, and every later call works.", "quantifier": "every history of calls on any number of objects, every range, every element at which the assignment throws, every block size", "why_tests_cant": "every element of every range is a failure point", "anchors": ["gmlc/containers/StableBlockDeque.hpp::StableBlockDeque::assign", "gmlc/containers/StableBlockDeque.hpp::StableBlockDeque::move_assign"]}
{"id": "C86", "title": "MappedVector: calls that throw have no effect", "statement": "If insert, insert_or_assign or addSearchTermForIndex throws, because memory runs out or because copying the search term or constructing the element throws, the container holds the elements and search terms it held before, and the call can be repeated.", "quantifier": "every history of calls, including earlier calls that threw, every call, every point at which it can throw, every search term and value type, both storage kinds and every block size", "why_tests_cant": "every allocation, constructor, assignment and callback in every state is a failure point, and what it leaves behind may show only in later calls", "anchors": ["gmlc/containers/MappedVector.hpp::MappedVector::insert", "gmlc/containers/MappedVector.hpp::MappedVector::insert_or_assign", "gmlc/containers/MappedVector.hpp::MappedVector::addSearchTermForIndex"]}
{"id": "C87", "title": "MappedVector: usable after exceptions", "statement": "After any exception thrown by a constructor, an assignment, an allocation or a function passed to modify or transform, the container is in a valid state: every element is an old one, a new one, or one whose assignment was interrupted; search terms lead to the elements they were attached to; every later call returns what it should for that state, and the container can be destroyed.", "quantifier": "every history of calls with any number of exceptions at any points, both storage kinds and every block size", "why_tests_cant": "every allocation, constructor, assignment and callback in every state is a failure point, and what it leaves behind may show only in later calls", "anchors": ["gmlc/containers/MappedVector.hpp::MappedVector::insert", "gmlc/containers/MappedVector.hpp::MappedVector::insert_or_assign", "gmlc/containers/MappedVector.hpp::MappedVector::addSearchTermForIndex", "gmlc/containers/MappedVector.hpp::MappedVector::modify", "gmlc/containers/MappedVector.hpp::MappedVector::transform", "gmlc/containers/MappedVector.hpp::MappedVector::clear"]}
{"id": "C88", "title": "DualMappedVector: calls that throw have no effect", "statement": "If insert, insert_or_assign, addSearchTerm or addSearchTermForIndex throws, because memory runs out or because copying a search term or constructing the element throws, the container holds the elements and search terms it held before, and the call can be repeated.", "quantifier": "every history of calls, including earlier calls that threw, every call, every point at which it can throw, every search term and value type, both storage kinds and every block size", "why_tests_cant": "every allocation, constructor, assignment and callback in every state is a failure point, and what it leaves behind may show only in later calls", "anchors": ["gmlc/containers/DualMappedVector.hpp::DualMappedVector::insert", "gmlc/containers/DualMappedVector.hpp::DualMappedVector::insert_or_assign", "gmlc/containers/DualMappedVector.hpp::DualMappedVector::addSearchTermForIndex", "gmlc/containers/DualMappedVector.hpp::DualMappedVector::addSearchTerm"]}
{"id": "C89", "title": "DualMappedVector: usable after exceptions", "statement": "After any exception thrown by a constructor, an assignment, an allocation or a function passed to modify or transform, the container is in a valid state: every element is an old one, a new one, or one whose assignment was interrupted; search terms lead to the elements they were attached to; every later call returns what it should for that state, and the container can be destroyed.", "quantifier": "every history of calls with any number of exceptions at any points, both storage kinds and every block size", "why_tests_cant": "every allocation, constructor, assignment and callback in every state is a failure point, and what it leaves behind may show only in later calls", "anchors": ["gmlc/containers/DualMappedVector.hpp::DualMappedVector::insert", "gmlc/containers/DualMappedVector.hpp::DualMappedVector::insert_or_assign", "gmlc/containers/DualMappedVector.hpp::DualMappedVector::addSearchTermForIndex", "gmlc/containers/DualMappedVector.hpp::DualMappedVector::addSearchTerm", "gmlc/containers/DualMappedVector.hpp::DualMappedVector::modify", "gmlc/containers/DualMappedVector.hpp::DualMappedVector::transform", "gmlc/containers/DualMappedVector.hpp::DualMappedVector::clear"]}
{"id": "C90", "title": "Mapped vectors: removals that throw", "statement": "If removeIndex of a MappedVector or DualMappedVector throws while it copies search terms of the element, every search term still leads to the element it was attached to, or to none.", "quantifier": "every history of calls with any number of exceptions, every index, every search term at which copying throws, every order in which the maps iterate, both storage kinds and every block size", "why_tests_cant": "every allocation, constructor, assignment and callback in every state is a failure point, and what it leaves behind may show only in later calls", "anchors": ["gmlc/containers/MappedVector.hpp::MappedVector::removeIndex", "gmlc/containers/DualMappedVector.hpp::DualMappedVector::removeIndex", "gmlc/containers/DualMappedVector.hpp::DualMappedVector::remove"]}
{"id": "C91", "title": "MappedPointerVector: valid after exceptions", "statement": "After any exception thrown while an object is constructed, memory is allocated or a search term is copied in an insertion, the container is in a valid state: every later call returns what it should for the elements it then holds, no object is leaked or destroyed twice, no two elements share an object, and destroying the container destroys every object.", "quantifier": "every history of calls with any number of exceptions at any points, every search term and value type", "why_tests_cant": "every allocation, constructor and copy of a search term in every state is a failure point, and what it leaves behind may show only in later calls", "anchors": ["gmlc/containers/MappedPointerVector.hpp::MappedPointerVector::insert", "gmlc/containers/MappedPointerVector.hpp::MappedPointerVector::insert_or_assign", "gmlc/containers/MappedPointerVector.hpp::MappedPointerVector::addSearchTermForIndex"]}
{"id": "C92", "title": "MappedPointerVector: calls that throw have no effect", "statement": "If insert, insert_or_assign or addSearchTermForIndex throws, the container holds the elements and search terms it held before; if a pointer was to be inserted, the caller still owns it.", "quantifier": "every history of calls, including earlier calls that threw, every call, every point at which it can throw", "why_tests_cant": "every allocation, constructor and copy of a search term in every state is a failure point, and what it leaves behind may show only in later calls", "anchors": ["gmlc/containers/MappedPointerVector.hpp::MappedPointerVector::insert", "gmlc/containers/MappedPointerVector.hpp::MappedPointerVector::insert_or_assign", "gmlc/containers/MappedPointerVector.hpp::MappedPointerVector::addSearchTermForIndex"]}
{"id": "C93", "title": "DualMappedPointerVector: valid after exceptions", "statement": "After any exception thrown while an object is constructed, memory is allocated or a search term is copied in an insertion, the container is in a valid state: every later call returns what it should for the elements it then holds, no object is leaked or destroyed twice, no two elements share an object, and destroying the container destroys every object.", "quantifier": "every history of calls with any number of exceptions at any points, every pair of search term types and every value type", "why_tests_cant": "every allocation, constructor and copy of a search term in every state is a failure point, and what it leaves behind may show only in later calls", "anchors": ["gmlc/containers/DualMappedPointerVector.hpp::DualMappedPointerVector::insert", "gmlc/containers/DualMappedPointerVector.hpp::DualMappedPointerVector::insert_or_assign"]}
{"id": "C94", "title": "DualMappedPointerVector: calls that throw have no effect", "statement": "If insert or insert_or_assign throws, the container holds the elements and search terms it held before; if a pointer was to be inserted, the caller still owns it.", "quantifier": "every history of calls, including earlier calls that threw, every call, every point at which it can throw", "why_tests_cant": "every allocation, constructor and copy of a search term in every state is a failure point, and what it leaves behind may show only in later calls", "anchors": ["gmlc/containers/DualMappedPointerVector.hpp::DualMappedPointerVector::insert", "gmlc/containers/DualMappedPointerVector.hpp::DualMappedPointerVector::insert_or_assign"]}
{"id": "C95", "title": "Mapped pointer vectors: removals that throw", "statement": "If a removal from a MappedPointerVector or DualMappedPointerVector throws while it copies a search term of the element, every search term still leads to the object it was attached to, or to none, and no other object is destroyed.", "quantifier": "every history of calls with any number of exceptions, every element, every search term at which copying throws, every order in which the maps iterate", "why_tests_cant": "every allocation, constructor and copy of a search term in every state is a failure point, and what it leaves behind may show only in later calls", "anchors": ["gmlc/containers/MappedPointerVector.hpp::MappedPointerVector::removeIndex", "gmlc/containers/DualMappedPointerVector.hpp::DualMappedPointerVector::removeIndex", "gmlc/containers/DualMappedPointerVector.hpp::DualMappedPointerVector::remove"]}
{"id": "C96", "title": "StringMappedVector: calls that throw have no effect", "statement": "If insert or insert_or_assign throws, the container holds the elements and search terms it held before.", "quantifier": "every history of calls, including earlier calls that threw, every hash function, every order in which the map iterates, every call, every point at which it can throw, both storages", "why_tests_cant": "every allocation, constructor and assignment in every state is a failure point, and what it leaves behind may show only in later calls", "anchors": ["gmlc/containers/StringMappedVector.hpp::StringMappedVector::insert", "gmlc/containers/StringMappedVector.hpp::StringMappedVector::insert_or_assign"]}
{"id": "C97", "title": "StringMappedVector: usable after exceptions", "statement": "After any call that throws (allocation, construction of an element, copying the search term, assignment, storing in the map, a function passed to modify or transform) the container can be used and destroyed: later calls do what they should for what it then holds, every search term is a string of the container's own, and with stable storage no element has moved.", "quantifier": "every history of calls with any number of exceptions, every point at which each call can throw, every later program", "why_tests_cant": "every allocation, constructor, assignment and callback in every state is a failure point, and what it leaves behind may show only in later calls", "anchors": ["gmlc/containers/StringMappedVector.hpp::StringMappedVector::insert", "gmlc/containers/StringMappedVector.hpp::StringMappedVector::insert_or_assign", "gmlc/containers/StringMappedVector.hpp::StringMappedVector::modify", "gmlc/containers/StringMappedVector.hpp::StringMappedVector::transform"]}
{"id": "C98", "title": "DualStringMappedVector: calls that throw have no effect", "statement": "If insert, insert_or_assign, addSearchTerm or addSearchTermForIndex throws, the container holds the elements and search terms it held before.", "quantifier": "every history of calls, including earlier calls that threw, every hash function, every order in which the maps iterate, every call, every point at which it can throw, both storages", "why_tests_cant": "every allocation, constructor, assignment and callback in every state is a failure point, and what it leaves behind may show only in later calls", "anchors": ["gmlc/containers/DualStringMappedVector.hpp::DualStringMappedVector::insert", "gmlc/containers/DualStringMappedVector.hpp::DualStringMappedVector::insert_or_assign", "gmlc/containers/DualStringMappedVector.hpp::DualStringMappedVector::addSearchTerm", "gmlc/containers/DualStringMappedVector.hpp::DualStringMappedVector::addSearchTermForIndex"]}
{"id": "C99", "title": "DualStringMappedVector: usable after exceptions", "statement": "After any call that throws (allocation, construction of an element, copying a search term, assignment, storing in a map, a function passed to modify or transform) the container can be used and destroyed: later calls do what they should for what it then holds, every first search term is a string of the container's own, and with stable storage no element has moved.", "quantifier": "every history of calls with any number of exceptions, every point at which each call can throw, every later program", "why_tests_cant": "every allocation, constructor, assignment and callback in every state is a failure point, and what it leaves behind may show only in later calls", "anchors": ["gmlc/containers/DualStringMappedVector.hpp::DualStringMappedVector::insert", "gmlc/containers/DualStringMappedVector.hpp::DualStringMappedVector::insert_or_assign", "gmlc/containers/DualStringMappedVector.hpp::DualStringMappedVector::addSearchTerm", "gmlc/containers/DualStringMappedVector.hpp::DualStringMappedVector::addSearchTermForIndex", "gmlc/containers/DualStringMappedVector.hpp::DualStringMappedVector::modify", "gmlc/containers/DualStringMappedVector.hpp::DualStringMappedVector::transform"]}
{"id": "C100", "title": "DualStringMappedVector: removals that throw have no effect", "statement": "If removeIndex throws because a search term cannot be copied, the container holds the elements and search terms it held before.", "quantifier": "every history of calls, every element, every point at which the removal can throw", "why_tests_cant": "every allocation, constructor, assignment and callback in every state is a failure point, and what it leaves behind may show only in later calls", "anchors": ["gmlc/containers/DualStringMappedVector.hpp::DualStringMappedVector::removeIndex"]}
{"id": "C101", "title": "AirLock: calls that throw have no effect", "statement": "If assigning the value passed to try_load or load throws, or moving the value out in try_unload throws, the call has no effect: the history without it is a history of the one-slot buffer, the lock is released, and a value that could not be moved out can be unloaded later.", "quantifier": "every number of threads, every interleaving, every combination of calls that throw", "why_tests_cant": "which calls throw and how they interleave with the others is unbounded", "anchors": ["gmlc/containers/AirLock.hpp::AirLock::try_load", "gmlc/containers/AirLock.hpp::AirLock::load", "gmlc/containers/AirLock.hpp::AirLock::try_unload"]}
{"id": "C102", "title": "AirLock: exceptions lose no wake-up", "statement": "If the slot is empty and threads wait in load, then a loader is awake and on its way to the slot, or an unloader is about to notify, whatever calls have thrown.", "quantifier": "every number of loaders and unloaders, every interleaving, every combination of calls that throw", "why_tests_cant": "lost wake-ups need precise interleavings and an exception at the right moment", "anchors": ["gmlc/containers/AirLock.hpp::AirLock::load", "gmlc/containers/AirLock.hpp::AirLock::try_unload"]}
{"id": "C103", "title": "BlockingQueue: exceptions in pops and try_peek", "statement": "If moving or copying an element throws during try_pop, pop, pop(timeout), popOrCall or try_peek, or the function passed to popOrCall throws, the exception reaches the caller, the locks are released, and all other calls behave as if the failed call had not been made; in particular the element stays in the queue and can be taken by the next call.", "quantifier": "every history, every set of calls that throw, every place in a call at which it can throw, every number of threads and every interleaving", "why_tests_cant": "every call is a potential failure point, the failure can fall before or after a wait and into any interleaving with other calls", "anchors": ["gmlc/containers/BlockingQueue.hpp::BlockingQueue::try_pop", "gmlc/containers/BlockingQueue.hpp::BlockingQueue::pop", "gmlc/containers/BlockingQueue.hpp::BlockingQueue::popOrCall", "gmlc/containers/BlockingQueue.hpp::BlockingQueue::try_peek"]}
{"id": "C104", "title": "BlockingPriorityQueue: exceptions in pops and try_peek", "statement": "If moving or copying an element throws during try_pop, pop, pop(timeout), popOrCall or try_peek, or the function passed to popOrCall throws, the exception reaches the caller, the locks are released, and all other calls behave as if the failed call had not been made; in particular the element stays in its channel and can be taken by the next call.", "quantifier": "every history, every set of calls that throw, every place in a call at which it can throw, every number of threads and every interleaving", "why_tests_cant": "every call is a potential failure point, the failure can fall before or after a wait and into any interleaving with other calls", "anchors": ["gmlc/containers/BlockingPriorityQueue.hpp::BlockingPriorityQueue::try_pop", "gmlc/containers/BlockingPriorityQueue.hpp::BlockingPriorityQueue::pop", "gmlc/containers/BlockingPriorityQueue.hpp::BlockingPriorityQueue::popOrCall", "gmlc/containers/BlockingPriorityQueue.hpp::BlockingPriorityQueue::try_peek"]}
{"id": "C105", "title": "WorkQueue: no data races", "statement": "Two threads never access the same work block, the same thread object, or the same internal vector at the same time with one of them writing, unless the accesses are synchronised: the workers, the clients adding work and the client closing the queue do not race, whatever they do at the same time.", "quantifier": "all numbers of workers, all clients, all schedules", "why_tests_cant": "a race shows only in rare schedules, and not as a wrong result on the machine that runs the tests", "anchors": ["gmlc/containers/WorkQueue.hpp::WorkBlock::execute", "gmlc/containers/WorkQueue.hpp::WorkBlock::isFinished", "gmlc/containers/WorkQueue.hpp::WorkQueue::addWorkBlock", "gmlc/containers/WorkQueue.hpp::WorkQueue::workerLoop", "gmlc/containers/WorkQueue.hpp::WorkQueue::closeWorkerQueue"]}
{"id": "C106", "title": "Work block: isFinished", "statement": "isFinished() of a block given to a queue answers true exactly if the block's function has run to its end, whenever it is called; once true it stays true.", "quantifier": "all numbers of workers, all clients, all schedules, all moments at which it is called", "why_tests_cant": "the moment between the end of the function and the answer is chosen by the scheduler", "anchors": ["gmlc/containers/WorkQueue.hpp::WorkBlock::execute", "gmlc/containers/WorkQueue.hpp::WorkBlock::isFinished", "gmlc/containers/WorkQueue.hpp::WorkBlock::wait"]}
{"id": "C107", "title": "StableBlockVector: pointer arrays are neither leaked nor deleted twice", "statement": "Besides the blocks with its elements a vector owns two arrays of pointers to blocks. In any program over any number of vectors, with copies and moves, no array is deleted twice or used by two vectors, each array that exists belongs to a vector that exists, and when all vectors are destroyed no array is left.", "quantifier": "all block sizes, element types, numbers of vectors and finite programs in which the code has no other undefined behaviour", "why_tests_cant": "the arrays are replaced when they are full, after 64, 128, ... blocks, and swapped by moves; a test sees neither a leak nor most double deletions", "anchors": ["gmlc/containers/StableBlockVector.hpp::constructors", "gmlc/containers/StableBlockVector.hpp::operator=", "gmlc/containers/StableBlockVector.hpp::blockCheck", "gmlc/containers/StableBlockVector.hpp::moveBlocktoAvailable", "gmlc/containers/StableBlockVector.hpp::freeAll"]}
{"id": "C108", "title": "StableBlockDeque: pointer arrays are neither leaked nor deleted twice", "statement": "As C107 for the two arrays of pointers to blocks of a deque, which can grow at both ends.", "quantifier": "all block sizes, element types, numbers of deques and finite programs in which the code has no other undefined behaviour", "why_tests_cant": "as C107", "anchors": ["gmlc/containers/StableBlockDeque.hpp::constructors", "gmlc/containers/StableBlockDeque.hpp::operator=", "gmlc/containers/StableBlockDeque.hpp::blockCheck", "gmlc/containers/StableBlockDeque.hpp::blockCheckFront", "gmlc/containers/StableBlockDeque.hpp::moveBlocktoAvailable", "gmlc/containers/StableBlockDeque.hpp::freeAll"]}
{"id": "C109", "title": "BlockingQueue: when the pops wait and call the function", "statement": "pop(timeout) returns nothing only after a wait that ended with a timeout, and does not wait again after one; popOrCall calls its function each time before it waits, holding no lock, so that the function can use the queue, and takes what the function put into the queue without waiting; no other call waits.", "quantifier": "every history, every number of threads, every interleaving, every pattern of spurious wake-ups and timeouts", "why_tests_cant": "depends on when waits begin and end relative to the steps of other threads", "anchors": ["gmlc/containers/BlockingQueue.hpp::BlockingQueue::pop", "gmlc/containers/BlockingQueue.hpp::BlockingQueue::popOrCall"]}
{"id": "C110", "title": "BlockingPriorityQueue: when the pops wait and call the function", "statement": "pop(timeout) returns nothing only after a wait that ended with a timeout, and does not wait again after one; popOrCall calls its function each time before it waits, holding no lock, so that the function can use the queue, and takes what the function put into the queue without waiting; no other call waits.", "quantifier": "every history, every number of threads, every interleaving, every pattern of spurious wake-ups and timeouts", "why_tests_cant": "depends on when waits begin and end relative to the steps of other threads", "anchors": ["gmlc/containers/BlockingPriorityQueue.hpp::BlockingPriorityQueue::pop", "gmlc/containers/BlockingPriorityQueue.hpp::BlockingPriorityQueue::popOrCall"]}
{"id": "C111", "title": "StackBuffer objects: who owns which memory, also when memory runs out", "statement": "Any number of StackBuffer objects may be constructed, copied, moved, assigned, swapped, resized, used and destroyed in any order: no memory block is ever deleted twice or used after it was deleted, no two objects share memory, all memory has been given back when the last object is destroyed, and a call that gets no memory throws std::bad_alloc and leaves all objects as they were.", "quantifier": "every program over any number of objects, every set of calls for which `new` fails", "why_tests_cant": "ownership errors depend on the whole history of copies and moves of all objects, and tests do not make `new` fail", "anchors": ["gmlc/containers/StackBuffer.hpp::StackBuffer::operator=", "gmlc/containers/StackBuffer.hpp::StackBuffer::resize", "gmlc/containers/StackBuffer.hpp::StackBuffer::resizeMemory", "gmlc/containers/StackBuffer.hpp::StackBuffer::~StackBuffer"]}
{"id": "C112", "title": "StackBuffer: index entries are accessed at aligned addresses", "statement": "Whatever calls are made on a StackBuffer or StackBufferRaw of whatever size, the int32_t index entries kept at the end of its memory are accessed at addresses that are multiples of 4.", "quantifier": "every size, every address of the memory, every history of calls", "why_tests_cant": "misaligned accesses work on common hardware; whether they occur depends on size and address", "anchors": ["gmlc/containers/StackBuffer.hpp::StackBufferRaw::push", "gmlc/containers/StackBuffer.hpp::StackBufferRaw::StackBufferRaw"]}
{"id": "C113", "title": "CircularBuffer objects: who owns which memory, also when memory runs out", "statement": "Any number of CircularBuffer objects may be constructed, copied, moved, assigned, resized, used and destroyed in any order: no memory block is ever deleted twice or used after it was deleted, no two objects share memory, all memory has been given back when the last object is destroyed, and a call that gets no memory throws std::bad_alloc and leaves all objects as they were.", "quantifier": "every program over any number of objects, every set of calls for which `new` fails", "why_tests_cant": "ownership errors depend on the whole history of copies and moves of all objects, and tests do not make `new` fail", "anchors": ["gmlc/containers/CircularBuffer.hpp::CircularBuffer::operator=", "gmlc/containers/CircularBuffer.hpp::CircularBuffer::resize", "gmlc/containers/CircularBuffer.hpp::CircularBuffer::resizeMemory", "gmlc/containers/CircularBuffer.hpp::CircularBuffer::~CircularBuffer"]}
{"id": "C114", "title": "CircularBuffer: exactly which pushes and which resizes are safe", "statement": "There is a condition on the state of a CircularBuffer and the size of the message (respectively the new size) that tells exactly whether a push or a resize that is accepted is safe: if it holds, every later call is answered as by a FIFO of the accepted messages; if it does not, some later calls are not. Leaving 8 spare bytes always satisfies it.", "quantifier": "every capacity, every history of calls, every message, every new size, every continuation", "why_tests_cant": "whether a push is safe shows only in later calls, and depends on the positions the whole history led to", "anchors": ["gmlc/containers/CircularBuffer.hpp::CircularBufferRaw::push", "gmlc/containers/CircularBuffer.hpp::CircularBufferRaw::pop", "gmlc/containers/CircularBuffer.hpp::CircularBuffer::resize"]}
{"id": "C115", "title": "WorkQueue: a call of addWorkBlock that throws has no effect", "statement": "If addWorkBlock throws because memory runs out, none of its blocks has been queued and everything later is as if the call had not been made: each block is run and handed out at most as often as it was added without exception, and a block added once without exception is run exactly once when a queue that nobody closes is drained.", "quantifier": "any number of workers, clients, failing allocations; every interleaving; every history of calls", "why_tests_cant": "tests do not make allocations fail, and cannot try all interleavings with the other threads", "anchors": ["gmlc/containers/WorkQueue.hpp::WorkQueue::addWorkBlock", "gmlc/containers/WorkQueue.hpp::WorkQueue::workerLoop", "gmlc/containers/SimpleQueue.hpp::SimpleQueue::push", "gmlc/containers/SimpleQueue.hpp::SimpleQueue::pushVector"]}
{"id": "C116", "title": "WorkQueue: a queue whose closeWorkerQueue threw can still be closed and destroyed", "statement": "If closeWorkerQueue throws because memory runs out, all workers still end, and the queue can be closed again and destroyed.", "quantifier": "any number of workers, clients, failing allocations; every interleaving; every history of calls", "why_tests_cant": "tests do not make allocations fail; what happens afterwards depends on where the workers are", "anchors": ["gmlc/containers/WorkQueue.hpp::WorkQueue::closeWorkerQueue", "gmlc/containers/WorkQueue.hpp::WorkQueue::~WorkQueue", "gmlc/containers/WorkQueue.hpp::WorkQueue::workerLoop"]}
{"id": "C117", "title": "WorkQueue: a constructor that cannot start its threads throws", "statement": "If memory or threads run out, the constructor of WorkQueue throws; otherwise it yields a queue with the number of workers asked for.", "quantifier": "any number of threads, any set of threads that cannot be started", "why_tests_cant": "tests do not make thread creation fail at every position", "anchors": ["gmlc/containers/WorkQueue.hpp::WorkQueue::WorkQueue"]}
{"id": "C118", "title": "WorkQueue: share of low priority blocks when many threads fetch at once", "statement": "While low priority blocks are queued and the ratio is at most R, the T threads that fetch blocks (workers and callers of getWorkBlock) take at most R + T medium priority blocks for each low priority block they take, and so a low priority block is taken after at most R + T medium priority blocks.", "quantifier": "any number of workers and clients, every interleaving of their steps, blocks added and ratios set at any time", "why_tests_cant": "the counter of fetched medium priority blocks is read, increased and reset without a lock; how far it can be off depends on the interleaving", "anchors": ["gmlc/containers/WorkQueue.hpp::WorkQueue::getWorkBlock", "gmlc/containers/WorkQueue.hpp::WorkQueue::setPriorityRatio", "gmlc/containers/WorkQueue.hpp::WorkQueue::workerLoop"]}
{"id": "C119", "title": "WorkQueue: low priority blocks do not crowd out medium priority ones", "statement": "While medium priority blocks are queued and the ratio is at least r, the T threads that fetch blocks take at most T low priority blocks for each r medium priority blocks they take (and at most T * (T + 2r) / r more), whatever the number of blocks fetched before.", "quantifier": "any number of workers and clients, every interleaving of their steps, blocks added and ratios set at any time, every earlier history (including overflow of the counter)", "why_tests_cant": "low priority blocks are taken early when several threads read the counter before it is reset; how often depends on the interleaving", "anchors": ["gmlc/containers/WorkQueue.hpp::WorkQueue::getWorkBlock", "gmlc/containers/WorkQueue.hpp::WorkQueue::setPriorityRatio", "gmlc/containers/WorkQueue.hpp::WorkQueue::workerLoop"]}
{"id": "C120", "title": "WorkQueue: a queued block waits only for a bounded amount of work", "statement": "If nobody closes the queue, a queued block is handed to some thread as soon as any one worker has made a bounded number of steps: 28 + 22 m, where m counts the blocks that may be taken before it: for high priority the blocks before it; for medium priority also the high priority blocks taken meanwhile and the low priority ones C119 allows; for low priority also the medium priority ones C118 allows. This holds whether or not notifications are lost.", "quantifier": "any number of workers and clients, every interleaving, every position in each queue; the steps of one worker may be interleaved with anything", "why_tests_cant": "progress has to hold under every schedule, including those where notifications are lost and other threads stop in the middle of a call", "anchors": ["gmlc/containers/WorkQueue.hpp::WorkQueue::getWorkBlock", "gmlc/containers/WorkQueue.hpp::WorkQueue::workerLoop", "gmlc/containers/WorkQueue.hpp::WorkQueue::addWorkBlock"]}
{"id": "C121", "title": "WorkQueue: every submitted block is executed in the end", "statement": "In every fair execution (a thread that can go on again and again does so again and again) in which the queue has workers and is not closed, every block submitted with high or required priority is executed by a worker or returned by getWorkBlock in the end. The same holds for medium and low priority blocks if from some moment on nobody submits high priority blocks (and finitely many threads fetch; for low priority the ratios set are below 2^31 minus the number of fetching threads). Lost notifications and overflow of the counter of medium priority fetches do not matter. If nobody calls getWorkBlock, every submitted block is run and finished.", "quantifier": "every infinite fair execution, any number of workers and clients, any calls except closing the queue, both forms of addWorkBlock", "why_tests_cant": "an infinite execution cannot be tested; liveness has to be shown for every fair schedule", "anchors": ["gmlc/containers/WorkQueue.hpp::WorkQueue::addWorkBlock", "gmlc/containers/WorkQueue.hpp::WorkQueue::getWorkBlock", "gmlc/containers/WorkQueue.hpp::WorkQueue::workerLoop"]}
{"id": "C122", "title": "Queues: calls that do not wait return", "statement": "In every fair execution (a thread that is not waiting for a notification and can go on again and again does so) every call of a SimpleQueue returns, whatever the other threads do. Every call of a BlockingQueue or BlockingPriorityQueue other than pop, pop(timeout) and popOrCall returns; pop, pop(timeout) and popOrCall return or begin to wait; and once a wait of pop(timeout) has ended with the timeout, the call returns. No thread is starved by the order in which the two locks are taken.", "quantifier": "every infinite fair execution, any number of threads and calls, insertions and moves that throw included", "why_tests_cant": "an infinite execution cannot be tested; that no thread waits for a lock for ever has to be shown for every fair schedule", "anchors": ["gmlc/containers/SimpleQueue.hpp::SimpleQueue::push", "gmlc/containers/SimpleQueue.hpp::SimpleQueue::pop", "gmlc/containers/BlockingQueue.hpp::BlockingQueue::push", "gmlc/containers/BlockingQueue.hpp::BlockingQueue::try_pop", "gmlc/containers/BlockingQueue.hpp::BlockingQueue::pop", "gmlc/containers/BlockingPriorityQueue.hpp::BlockingPriorityQueue::pushPriority", "gmlc/containers/BlockingPriorityQueue.hpp::BlockingPriorityQueue::pop"]}
{"id": "C123", "title": "BlockingQueue, BlockingPriorityQueue: a waiting consumer gets what is pushed", "statement": "If only one thread removes elements and no insertion throws, then in every fair execution a pop of this thread returns if the queue is not empty at some moment after it has begun, in particular if any other thread calls an insertion after it has begun: no wakeup is lost for ever, although nothing wakes the consumer but notifications. If other threads also call clear or (BlockingQueue only) try_pop, the pop returns or the queue is empty again and again.", "quantifier": "every infinite execution that is fair to the threads that are not waiting, one consumer, any number of threads that insert", "why_tests_cant": "the wakeup has to be shown for every interleaving of the insertions with the waits, and its consequence for every fair schedule", "anchors": ["gmlc/containers/BlockingQueue.hpp::BlockingQueue::pop", "gmlc/containers/BlockingQueue.hpp::BlockingQueue::push", "gmlc/containers/BlockingPriorityQueue.hpp::BlockingPriorityQueue::pop", "gmlc/containers/BlockingPriorityQueue.hpp::BlockingPriorityQueue::pushPriority"]}
{"id": "C124", "title": "AirLock: waiting loads return", "statement": "In every fair execution (a thread that is not asleep in load and can go on again and again does so) try_load, try_unload and isLoaded return, load returns or begins to wait, and after every call of try_unload the airlock is empty at some moment. If try_unload is called again and again (and no load throws), every load returns.", "quantifier": "every infinite execution that is fair to the threads that are not asleep, any number of threads and calls", "why_tests_cant": "an infinite execution cannot be tested; the wakeups have to be shown for every fair schedule, and a load that is overtaken for ever is seen only in an infinite execution", "anchors": ["gmlc/containers/AirLock.hpp::AirLock::load", "gmlc/containers/AirLock.hpp::AirLock::try_load", "gmlc/containers/AirLock.hpp::AirLock::try_unload", "gmlc/containers/AirLock.hpp::AirLock::isLoaded"]}
{"id": "C125", "title": "AirLock in the C++ memory model: results and visibility", "statement": "AirLock reads and writes its flag with acquire and release ordering, so a read may yield an older value. In every execution the C++ memory model allows there is one order of the calls, compatible with happens-before, in which the results of load, try_load, try_unload and isLoaded are those of a buffer with one place: no value is lost, duplicated or invented. A call that fills or empties the airlock happens before the return of every call later in this order, so what a thread has written before it loads a value is visible to the thread that unloads it.", "quantifier": "every execution of the C++ memory model (every interleaving, every store a read may yield, every place a store may take in modification order, every synchronisation between threads outside the airlock), any number of threads and calls", "why_tests_cant": "stale reads depend on processor and compiler and may never occur on the test machine; visibility cannot be observed by a test at all", "anchors": ["gmlc/containers/AirLock.hpp::AirLock::load", "gmlc/containers/AirLock.hpp::AirLock::try_load", "gmlc/containers/AirLock.hpp::AirLock::try_unload", "gmlc/containers/AirLock.hpp::AirLock::isLoaded"]}
{"id": "C126", "title": "AirLock in the C++ memory model: no race, no lost wake-up, no deadlock", "statement": "In every execution the C++ memory model allows: any two accesses to the stored value are ordered by happens-before; a value is moved out only if one is there; a thread inside the lock reads the newest value of the flag; if the airlock is empty and threads sleep in load, a loader is awake or an unloader is about to notify (loads not throwing); and some unfinished call that is not asleep can go on.", "quantifier": "every execution of the C++ memory model, any number of threads and calls", "why_tests_cant": "a data race or a lost wake-up by a stale read shows up only on some processors and under rare timing", "anchors": ["gmlc/containers/AirLock.hpp::AirLock::load", "gmlc/containers/AirLock.hpp::AirLock::try_load", "gmlc/containers/AirLock.hpp::AirLock::try_unload"]}
{"id": "C127", "title": "Copies, moves and lifetimes of StringMappedVector and DualStringMappedVector objects", "statement": "In a program with any number of StringMappedVector objects (or DualStringMappedVector objects) that are constructed, copied, moved, copy- and move-assigned, used and destroyed in any order, every object behaves like an independent container: a copy has the elements and search terms of its original and neither is affected by later changes to the other or by its destruction; a move transfers all elements and search terms; and when all objects are destroyed no memory of elements or strings is left over.", "quantifier": "every program over any number of objects and any calls, both storages, every BLOCK_ORDER, hash function and map iteration order, every content of a moved-from map", "why_tests_cant": "the keys of the map are views into strings owned by an object: whether they dangle depends on the whole history of copies, moves and destructions, and a dangling view often still reads the right characters", "anchors": ["gmlc/containers/StringMappedVector.hpp::StringMappedVector", "gmlc/containers/StringMappedVector.hpp::StringMappedVector::find", "gmlc/containers/StringMappedVector.hpp::StringMappedVector::names", "gmlc/containers/DualStringMappedVector.hpp::DualStringMappedVector", "gmlc/containers/DualStringMappedVector.hpp::DualStringMappedVector::find", "gmlc/containers/DualStringMappedVector.hpp::DualStringMappedVector::names"]}
{"id": "C128", "title": "What every search term of a MappedVector finds, in every history", "statement": "A MappedVector is a sequence of values together with one position per search term, in every history, including elements with several search terms, elements without any, and removals that C34 excludes: insert appends and binds the new term; find returns the value at the term's position, or nothing if the position is one past the end; removal by a term takes the value at its position out, moves down every term that refers behind it, forgets that term only, and leaves other terms of the removed element where they are, so that they find the next element, or the one inserted next; removal by index forgets one term of the element, or, if it has none, a default-constructed term; stable storage takes out only the last value. Calls that stay within the bounds so defined have defined behaviour; with std::vector storage, all others are undefined.", "quantifier": "every sequence of calls and arguments, both storages, every BLOCK_ORDER, every map iteration order, every value a default-constructed term may have", "why_tests_cant": "search terms that refer to the wrong element only show after particular sequences of additions and removals, and every removal depends on the iteration order of the hash map", "anchors": ["gmlc/containers/MappedVector.hpp::MappedVector::insert", "gmlc/containers/MappedVector.hpp::MappedVector::insert_or_assign", "gmlc/containers/MappedVector.hpp::MappedVector::addSearchTermForIndex", "gmlc/containers/MappedVector.hpp::MappedVector::find", "gmlc/containers/MappedVector.hpp::MappedVector::remove", "gmlc/containers/MappedVector.hpp::MappedVector::removeIndex", "gmlc/containers/MappedVector.hpp::MappedVector::operator[]", "gmlc/containers/MappedVector.hpp::MappedVector::at", "gmlc/containers/MappedVector.hpp::MappedVector::back", "gmlc/containers/MappedVector.hpp::MappedVector::clear", "gmlc/containers/MappedVector.hpp::MappedVector::apply", "gmlc/containers/MappedVector.hpp::MappedVector::modify", "gmlc/containers/MappedVector.hpp::MappedVector::transform"]}
{"id": "C129", "title": "What every search term of a MappedPointerVector finds, and which objects exist, in every history", "statement": "A MappedPointerVector is a sequence of owned objects (or null pointers) together with one position per search term, in every history with defined behaviour, including elements with several search terms, elements without any, and removals that C38 excludes: removal by a term destroys the object at its position, moves down every term that refers behind it, forgets that term only, and leaves other terms of the removed element where they are, so that they find the next object, or are undefined to use if there is none. In all these histories the objects in existence are exactly those of the elements, no object is destroyed twice, and destroying the container leaves none. A call is undefined exactly if it writes through a null pointer, takes back() of an empty container, uses a term that refers one past the end, or removes by index an element without term while a default-constructed term has no determinate value.", "quantifier": "every sequence of calls and arguments, every map iteration order, every value a default-constructed term may have", "why_tests_cant": "a search term that is left behind refers to another object or past the end only after particular sequences of additions and removals; leaks and double deletions depend on the whole history", "anchors": ["gmlc/containers/MappedPointerVector.hpp::MappedPointerVector::insert", "gmlc/containers/MappedPointerVector.hpp::MappedPointerVector::insert_or_assign", "gmlc/containers/MappedPointerVector.hpp::MappedPointerVector::addSearchTermForIndex", "gmlc/containers/MappedPointerVector.hpp::MappedPointerVector::find", "gmlc/containers/MappedPointerVector.hpp::MappedPointerVector::remove", "gmlc/containers/MappedPointerVector.hpp::MappedPointerVector::removeIndex", "gmlc/containers/MappedPointerVector.hpp::MappedPointerVector::operator[]", "gmlc/containers/MappedPointerVector.hpp::MappedPointerVector::back", "gmlc/containers/MappedPointerVector.hpp::MappedPointerVector::clear", "gmlc/containers/MappedPointerVector.hpp::MappedPointerVector::apply"]}
{"id": "C130", "title": "What every search term of a DualMappedPointerVector finds, and which objects exist, in every history", "statement": "A DualMappedPointerVector is a sequence of owned objects (or null pointers), each with at most one search term of each type, in every history with defined behaviour, including those C44 excludes. An insertion with exactly one of its terms in use succeeds, and that term stays with its old object. Removing an element that lacks a term of one type (by index, or by its term of the other type) makes whichever element has the default-constructed term of that type lose it, and is undefined if that term has no determinate value. Every other call does what it should. The calls that are undefined are exactly these removals, writing through a null pointer and back() of an empty container. In all these histories the objects in existence are exactly those of the elements, no object is destroyed twice, and destroying the container leaves none.", "quantifier": "every sequence of calls and arguments, every iteration order of the two maps, every value default-constructed terms may have", "why_tests_cant": "which object a term finds after an insertion with one term in use, or after an unrelated removal, depends on the whole history; leaks and double deletions too", "anchors": ["gmlc/containers/DualMappedPointerVector.hpp::DualMappedPointerVector::insert", "gmlc/containers/DualMappedPointerVector.hpp::DualMappedPointerVector::insert_or_assign", "gmlc/containers/DualMappedPointerVector.hpp::DualMappedPointerVector::find", "gmlc/containers/DualMappedPointerVector.hpp::DualMappedPointerVector::remove", "gmlc/containers/DualMappedPointerVector.hpp::DualMappedPointerVector::removeIndex", "gmlc/containers/DualMappedPointerVector.hpp::DualMappedPointerVector::operator[]", "gmlc/containers/DualMappedPointerVector.hpp::DualMappedPointerVector::back", "gmlc/containers/DualMappedPointerVector.hpp::DualMappedPointerVector::clear", "gmlc/containers/DualMappedPointerVector.hpp::DualMappedPointerVector::apply"]}
{"id": "C131", "title": "What every name of a StringMappedVector finds in every history", "statement": "A StringMappedVector is a sequence of values and an assignment of positions to names, in every history, including those C39 excludes. All the time every known name refers to an existing element and different names refer to different elements; insert refuses a name exactly if find finds an element for it. Removing by index an element that has no name makes the empty string unknown, even if it is the name of another element; apart from that, removal makes only the removed element's name unknown, and the names of following elements keep finding them. Calls are undefined exactly where described: vector storage - index accesses beyond the end; stable storage - besides those, back() on an empty container, and traversals and unsuccessful searches while all reserved block slots are full.", "quantifier": "all sequences of calls, element values, names, hash functions, orders of the hash map, both storages and all block sizes", "why_tests_cant": "the interplay of unnamed elements, the empty name and index removal depends on the whole history; tests never remove an unnamed element while the empty name is in use", "anchors": ["gmlc/containers/StringMappedVector.hpp::StringMappedVector::insert", "gmlc/containers/StringMappedVector.hpp::StringMappedVector::insert_or_assign", "gmlc/containers/StringMappedVector.hpp::StringMappedVector::find", "gmlc/containers/StringMappedVector.hpp::StringMappedVector::remove", "gmlc/containers/StringMappedVector.hpp::StringMappedVector::removeIndex", "gmlc/containers/StringMappedVector.hpp::localErase"]}
{"id": "C132", "title": "DualMappedVector in every history: all results, and exactly when calls are undefined", "statement": "Every call of every program on a DualMappedVector returns what a sequence of elements, each with a set of search terms of both types, would return; a term moves to the new element when an insertion uses it again, removal forgets exactly the terms of the removed element. With vector storage a program is undefined exactly if it accesses an index beyond the end or asks an empty container for its last element. With stable storage traversals, and searches for an unknown term, while the reserved block slots are exactly full are undefined as well, and nothing else is apart from accesses beyond the end.", "quantifier": "all sequences of calls, element values, search terms, orders of the hash maps, both storages and all block sizes", "why_tests_cant": "whether a call is undefined depends on how many elements were ever inserted and how many are left; tests see one history", "anchors": ["gmlc/containers/DualMappedVector.hpp::DualMappedVector::insert", "gmlc/containers/DualMappedVector.hpp::DualMappedVector::insert_or_assign", "gmlc/containers/DualMappedVector.hpp::DualMappedVector::find", "gmlc/containers/DualMappedVector.hpp::DualMappedVector::remove", "gmlc/containers/DualMappedVector.hpp::DualMappedVector::removeIndex", "gmlc/containers/DualMappedVector.hpp::DualMappedVector::addSearchTerm", "gmlc/containers/DualMappedVector.hpp::DualMappedVector::addSearchTermForIndex"]}
{"id": "C133", "title": "DualStringMappedVector in every history: names ignored by insertions, removals that are undefined", "statement": "Every call of every program on a DualStringMappedVector, including those C43 excludes, returns what a sequence of elements with names and second terms would return, with these differences: insert with a name in use and a second term not in use reports success but leaves the name with its old element; removing an element is undefined if the number of its names, or of its second terms, exactly fills the block slots reserved by a temporary vector (64 blocks, 128, ...); with stable storage traversals and unsuccessful searches are undefined while the reserved slots are exactly full. Nothing else is undefined apart from accesses beyond the end and back() of an empty container. In every state so reached, insertions and removals affect exactly the terms and elements they should, with the exception named.", "quantifier": "all sequences of calls, element values, names, second terms, hash functions, orders of the hash maps, both storages and all block sizes", "why_tests_cant": "the differences show up only with terms used twice in particular combinations or with 64 or more terms at one element, and then depend on what else is in the container", "anchors": ["gmlc/containers/DualStringMappedVector.hpp::DualStringMappedVector::insert", "gmlc/containers/DualStringMappedVector.hpp::DualStringMappedVector::insert_or_assign", "gmlc/containers/DualStringMappedVector.hpp::DualStringMappedVector::find", "gmlc/containers/DualStringMappedVector.hpp::DualStringMappedVector::remove", "gmlc/containers/DualStringMappedVector.hpp::DualStringMappedVector::removeIndex", "gmlc/containers/DualStringMappedVector.hpp::DualStringMappedVector::addSearchTerm", "gmlc/containers/DualStringMappedVector.hpp::DualStringMappedVector::addSearchTermForIndex"]}
{"id": "C134", "title": "Work blocks and futures in programs that move them", "statement": "In every program that makes, moves, assigns, executes, resets, updates and destroys any number of work blocks made from functions and keeps futures taken from them: a planned run (made by construction, reset or updateWorkFunction) belongs to one block and moves with it; it is run by the first execute of that block, or broken when the block gives it up before (reset, update, being assigned to, destruction); every future of it, wherever taken, answers that result for ever. A block moved from throws no_state on execute (if it was not finished) and on reset, keeps its isFinished, has no future, and can be used again after updateWorkFunction. A future that is not ready always belongs to an existing unfinished block whose execution makes it ready, and functions are run at most once per planned run.", "quantifier": "every program of any length over any number of blocks and futures, all functions (results may be values or exceptions and may depend on all runs before)", "why_tests_cant": "all orders of moves, assignments, executions, destructions over unboundedly many blocks", "anchors": ["gmlc/containers/WorkQueue.hpp::WorkBlock::WorkBlock", "gmlc/containers/WorkQueue.hpp::WorkBlock::operator=", "gmlc/containers/WorkQueue.hpp::WorkBlock::execute", "gmlc/containers/WorkQueue.hpp::WorkBlock::reset", "gmlc/containers/WorkQueue.hpp::WorkBlock::updateWorkFunction", "gmlc/containers/WorkQueue.hpp::WorkBlock::get_future", "gmlc/containers/WorkQueue.hpp::WorkBlock::getReturnVal"]}
{"id": "C135", "title": "Circular and stack buffers: no overflow of int", "statement": "In every program over CircularBuffer and StackBuffer objects with arguments of type int, no arithmetic on int overflows and no conversion of a pointer difference to int changes its value, as long as no memory access was out of bounds.", "quantifier": "all programs over any number of buffers (construction, copies, moves, swap, resize, push, pop, ...), all sizes up to 2147483647", "why_tests_cant": "overflow needs buffers of more than a gigabyte in particular states", "anchors": ["gmlc/containers/CircularBuffer.hpp::CircularBuffer::resize", "gmlc/containers/CircularBuffer.hpp::CircularBufferRaw::pop", "gmlc/containers/StackBuffer.hpp::StackBuffer::resize", "gmlc/containers/StackBuffer.hpp::StackBufferRaw::push", "gmlc/containers/StackBuffer.hpp::StackBufferRaw::pop"]}
{"id": "C136", "title": "Iterators of stable containers can be moved by any distance", "statement": "it += m and it -= m (and it + m, it - m) move by m elements, for every m of the parameter type ptrdiff_t for which the target position exists.", "quantifier": "every block size below 2^31, block sequence, position and 64-bit distance between existing positions", "why_tests_cant": "the failing distances are above 2^31; a test would need gigabytes of elements", "anchors": ["gmlc/containers/BlockIterator.hpp::BlockIterator::operator+=", "gmlc/containers/BlockIterator.hpp::BlockIterator::operator-=", "gmlc/containers/BlockIterator.hpp::BlockIterator::check", "gmlc/containers/BlockIterator.hpp::BlockIterator::checkNeg"]}
{"id": "C137", "title": "Moving an iterator computes no address outside of a block", "statement": "During ++, --, += and -= of an iterator between existing positions, every address computed from a pointer into a block is that of a cell of the block or one behind the last (other pointer arithmetic is undefined, even without a read).", "quantifier": "every block size, block sequence, position and distance between existing positions", "why_tests_cant": "the wrong address is usually replaced before it is used, so tests see nothing; it depends on the position in the block", "anchors": ["gmlc/containers/BlockIterator.hpp::BlockIterator::operator+=", "gmlc/containers/BlockIterator.hpp::BlockIterator::operator++", "gmlc/containers/BlockIterator.hpp::BlockIterator::operator-=", "gmlc/containers/BlockIterator.hpp::BlockIterator::operator--"]}
{"id": "C138", "title": "A constructor of a stable vector that throws leaves no memory behind", "statement": "If the constructor of a stable vector with a size, or its copy constructor, throws because an allocation fails or an element cannot be constructed, then all memory it allocated is given back and all elements it constructed are destroyed.", "quantifier": "every block size, history of the objects there are, size, object copied, point of failure, and program afterwards", "why_tests_cant": "the leak depends on which of arbitrarily many allocations and copies fails, and that nothing later gives the memory back is a statement about all later programs", "anchors": ["gmlc/containers/StableBlockVector.hpp::StableBlockVector::StableBlockVector", "gmlc/containers/StableBlockVector.hpp::StableBlockVector::assign", "gmlc/containers/StableBlockVector.hpp::StableBlockVector::getNewBlock"]}
{"id": "C139", "title": "A constructor of a stable deque that throws leaves no memory behind", "statement": "If the constructor of a stable deque with a size, or its copy constructor, throws because an allocation fails or an element cannot be constructed, then all memory it allocated is given back and all elements it constructed are destroyed.", "quantifier": "every block size, history of the objects there are, size, object copied, point of failure, and program afterwards", "why_tests_cant": "the leak depends on which of arbitrarily many allocations and copies fails, and that nothing later gives the memory back is a statement about all later programs", "anchors": ["gmlc/containers/StableBlockDeque.hpp::StableBlockDeque::StableBlockDeque", "gmlc/containers/StableBlockDeque.hpp::StableBlockDeque::assign", "gmlc/containers/StableBlockDeque.hpp::StableBlockDeque::getNewBlock"]}
{"id": "C140", "title": "Stable containers never read a block pointer that was never written", "statement": "No call on a stable vector or deque copies or otherwise reads an entry of its array of block pointers that no earlier call has written.", "quantifier": "every block size, history of any number of vectors and deques including calls that threw, and next call", "why_tests_cant": "whether an entry was written depends on the whole history, and a read of an indeterminate pointer shows no effect on the machines tests run on", "anchors": ["gmlc/containers/StableBlockVector.hpp::StableBlockVector::end", "gmlc/containers/StableBlockVector.hpp::StableBlockVector::blockCheck", "gmlc/containers/StableBlockVector.hpp::StableBlockVector::moveBlocktoAvailable", "gmlc/containers/StableBlockDeque.hpp::StableBlockDeque::end", "gmlc/containers/StableBlockDeque.hpp::StableBlockDeque::blockCheck", "gmlc/containers/StableBlockDeque.hpp::StableBlockDeque::blockCheckFront", "gmlc/containers/BlockIterator.hpp::BlockIterator"]}
{"id": "C141", "title": "Integer members of stable vectors do not overflow", "statement": "No call on a stable vector stores a value in one of its int members that does not fit in an int; the memory a vector holds is bounded by the largest number of elements it ever had.", "quantifier": "every block size up to 2^30, program on any number of vectors, and number of elements", "why_tests_cant": "overflow needs billions of elements, more than a test can insert, and signed overflow is undefined without visible effect", "anchors": ["gmlc/containers/StableBlockVector.hpp::StableBlockVector::blockCheck", "gmlc/containers/StableBlockVector.hpp::StableBlockVector::moveBlocktoAvailable", "gmlc/containers/StableBlockVector.hpp::StableBlockVector::StableBlockVector"]}
{"id": "C142", "title": "Integer members of stable deques do not overflow", "statement": "No call on a stable deque stores a value in one of its int members that does not fit in an int; the memory a deque holds is bounded by the largest number of elements it ever had, wherever they were inserted and removed.", "quantifier": "every block size up to 2^30, program on any number of deques, and number of elements", "why_tests_cant": "overflow needs billions of elements, more than a test can insert, and whether long runs of insertions at one end and removals at the other make the deque grow is a property of all histories", "anchors": ["gmlc/containers/StableBlockDeque.hpp::StableBlockDeque::blockCheck", "gmlc/containers/StableBlockDeque.hpp::StableBlockDeque::blockCheckFront", "gmlc/containers/StableBlockDeque.hpp::StableBlockDeque::moveBlocktoAvailable", "gmlc/containers/StableBlockDeque.hpp::StableBlockDeque::StableBlockDeque"]}
{"id": "C143", "title": "WorkQueue: a work block can close the queue that runs it", "statement": "closeWorkerQueue, called by the function of a work block, returns; all workers exit, all calls return, and the queue can be destroyed.", "quantifier": "any number of workers and clients, any blocks that close the queue, every interleaving", "why_tests_cant": "the outcome depends on which worker runs the block and on what all other threads do meanwhile", "anchors": ["gmlc/containers/WorkQueue.hpp::WorkQueue::closeWorkerQueue", "gmlc/containers/WorkQueue.hpp::WorkQueue::~WorkQueue", "gmlc/containers/WorkQueue.hpp::WorkQueue::workerLoop", "gmlc/containers/WorkQueue.hpp::WorkBlock::execute"]}
{"id": "C144", "title": "Packaged tasks given to work blocks", "statement": "In every program that uses work blocks, futures and packaged tasks of its own: a packaged task given to a work block, by its constructor or updateTask, is run when the block is executed, and futures of it, taken from the task before or from the block after, get the result of that run. A future that is ready stays as it is, and when all blocks and tasks are gone no future waits.", "quantifier": "every program with any number of blocks, tasks and futures; tasks that were run, reset, moved or had their future taken before; results may be values or exceptions", "why_tests_cant": "unbounded programs; what a future answers depends on everything done to its task before and to the block later", "anchors": ["gmlc/containers/WorkQueue.hpp::WorkBlock::WorkBlock(std::packaged_task)", "gmlc/containers/WorkQueue.hpp::WorkBlock::updateTask", "gmlc/containers/WorkQueue.hpp::WorkBlock::reset", "gmlc/containers/WorkQueue.hpp::WorkBlock::execute"]}
{"id": "C145", "title": "Calls on a work block that run out of memory have no effect", "statement": "If a constructor of WorkBlock, reset or updateWorkFunction throws std::bad_alloc, everything is as before the call: the block keeps its function, its result and whether it is finished, futures taken before are answered by the next execution as if the call had not been made, and nothing is left of a block that could not be made.", "quantifier": "every history of calls on a block made from a function, any of which may get no memory (reset and updateWorkFunction any number of times); results may be values or exceptions", "why_tests_cant": "tests do not make allocations fail; the damage shows only in later calls of a history", "anchors": ["gmlc/containers/WorkQueue.hpp::WorkBlock::reset", "gmlc/containers/WorkQueue.hpp::WorkBlock::updateWorkFunction", "gmlc/containers/WorkQueue.hpp::WorkBlock::WorkBlock", "gmlc/containers/WorkQueue.hpp::WorkBlock::execute"]}
{"id": "C146", "title": "Calls on a StableBlockVector that are declared noexcept survive a lack of memory", "statement": "A call on a StableBlockVector that is declared noexcept for its element type (default construction, construction with a size, moves, push_back, pop_back, clear, shrink_to_fit, destruction) does not end the program when no memory can be had; in particular calls that only remove elements need no memory.", "quantifier": "every block size and every state reached by calls on several vectors, elements whose constructors and destructors do not throw", "why_tests_cant": "tests do not make allocations fail; whether a removal needs memory depends on the history of the vector", "anchors": ["gmlc/containers/StableBlockVector.hpp::StableBlockVector::pop_back", "gmlc/containers/StableBlockVector.hpp::StableBlockVector::clear", "gmlc/containers/StableBlockVector.hpp::StableBlockVector::push_back", "gmlc/containers/StableBlockVector.hpp::StableBlockVector::shrink_to_fit", "gmlc/containers/StableBlockVector.hpp::StableBlockVector::moveBlocktoAvailable"]}
{"id": "C147", "title": "Removals from a StableBlockDeque that throw have no effect", "statement": "pop_back and pop_front of a StableBlockDeque remove the last or first element, also when no memory can be had; if they throw nevertheless, the deque is as before: same size, same elements, it can be used further, and no memory is lost.", "quantifier": "every block size and every state reached by calls on several deques, some of which may have failed for lack of memory", "why_tests_cant": "tests do not make allocations fail; whether a removal needs memory depends on the history of the deque", "anchors": ["gmlc/containers/StableBlockDeque.hpp::StableBlockDeque::pop_back", "gmlc/containers/StableBlockDeque.hpp::StableBlockDeque::pop_front", "gmlc/containers/StableBlockDeque.hpp::StableBlockDeque::moveBlocktoAvailable"]}
{"id": "C148", "title": "Calls on a StableBlockDeque that are declared noexcept survive a lack of memory", "statement": "A call on a StableBlockDeque that is declared noexcept for its element type (default construction, moves, clear, destruction) does not end the program when no memory can be had.", "quantifier": "every block size and every state of several deques, elements whose destructors do not throw", "why_tests_cant": "tests do not make allocations fail; whether clear needs memory depends on the history of the deque", "anchors": ["gmlc/containers/StableBlockDeque.hpp::StableBlockDeque::clear", "gmlc/containers/StableBlockDeque.hpp::StableBlockDeque::freeAll", "gmlc/containers/StableBlockDeque.hpp::StableBlockDeque::moveBlocktoAvailable"]}
{"id": "C149", "title": "Removals from a MappedVector with stable storage survive a lack of memory", "statement": "remove, removeIndex and clear of a MappedVector with stable storage remove elements and do not end the program, also when no memory can be had.", "quantifier": "every block size, search term type, map order and history of careful calls", "why_tests_cant": "tests do not make allocations fail; whether a removal needs memory depends on the history of the container", "anchors": ["gmlc/containers/MappedVector.hpp::MappedVector::remove", "gmlc/containers/MappedVector.hpp::MappedVector::removeIndex", "gmlc/containers/MappedVector.hpp::MappedVector::clear", "gmlc/containers/MappedVector.hpp::MappedVector::localErase", "gmlc/containers/StableBlockVector.hpp::StableBlockVector::pop_back", "gmlc/containers/StableBlockVector.hpp::StableBlockVector::clear"]}
{"id": "C150", "title": "StringMappedVector keeps no strings of elements that were taken out", "statement": "A StringMappedVector keeps no more strings than it has elements: removing elements and clearing the container gives the memory of their search terms back, so that a container that is used for a long time does not grow without bound.", "quantifier": "every block size, hash function, map order, storage and careful history; the violation for every search term, value and number of rounds", "why_tests_cant": "growth shows only in the memory used after long histories, no call returns anything wrong", "anchors": ["gmlc/containers/StringMappedVector.hpp::StringMappedVector::names", "gmlc/containers/StringMappedVector.hpp::StringMappedVector::insert", "gmlc/containers/StringMappedVector.hpp::StringMappedVector::insert_or_assign", "gmlc/containers/StringMappedVector.hpp::StringMappedVector::remove", "gmlc/containers/StringMappedVector.hpp::StringMappedVector::removeIndex", "gmlc/containers/StringMappedVector.hpp::StringMappedVector::clear"]}
{"id": "C151", "title": "DualStringMappedVector keeps no strings that name no element", "statement": "A DualStringMappedVector keeps only strings that are search terms of its elements: removing elements and clearing the container gives their strings back, and a call that is refused because the search term is in use leaves no string behind.", "quantifier": "every block size, hash function, order of both maps, storage and careful history; the violations for every search term, value, state with a known term and number of calls", "why_tests_cant": "growth shows only in the memory used after long histories, no call returns anything wrong", "anchors": ["gmlc/containers/DualStringMappedVector.hpp::DualStringMappedVector::names", "gmlc/containers/DualStringMappedVector.hpp::DualStringMappedVector::insert", "gmlc/containers/DualStringMappedVector.hpp::DualStringMappedVector::insert_or_assign", "gmlc/containers/DualStringMappedVector.hpp::DualStringMappedVector::addSearchTerm", "gmlc/containers/DualStringMappedVector.hpp::DualStringMappedVector::addSearchTermForIndex", "gmlc/containers/DualStringMappedVector.hpp::DualStringMappedVector::removeIndex", "gmlc/containers/DualStringMappedVector.hpp::DualStringMappedVector::clear"]}
{"id": "C152", "title": "Copy assignments of mapped vectors that throw leave a usable container", "statement": "If a copy assignment of a MappedVector or DualMappedVector throws, the target can still be used: every search term it accepts finds an element that was stored under it, and no later call is undefined.", "quantifier": "vector storage; every history of target and source, member whose assignment throws, contents the standard library leaves in that member and later program", "why_tests_cant": "which member fails and what it is left with depends on the moment memory runs out and on the standard library", "anchors": ["gmlc/containers/MappedVector.hpp::MappedVector::dataStorage", "gmlc/containers/MappedVector.hpp::MappedVector::lookup", "gmlc/containers/MappedVector.hpp::MappedVector::find", "gmlc/containers/DualMappedVector.hpp::DualMappedVector::dataStorage", "gmlc/containers/DualMappedVector.hpp::DualMappedVector::lookup1", "gmlc/containers/DualMappedVector.hpp::DualMappedVector::lookup2", "gmlc/containers/DualMappedVector.hpp::DualMappedVector::find"]}
{"id": "C153", "title": "Iterators of a StableBlockVector stay usable while elements are appended", "statement": "An iterator to an element of a StableBlockVector, kept while elements are appended and removed behind it, can still be dereferenced and gives that element, and a loop from it to the new end() sees the elements from its position on.", "quantifier": "every history, element, and sequence of push_back, pop_back and shrink_to_fit calls that keeps the element", "why_tests_cant": "whether an old iterator still works depends on how many elements were appended since it was taken", "anchors": ["gmlc/containers/StableBlockVector.hpp::StableBlockVector::begin", "gmlc/containers/StableBlockVector.hpp::StableBlockVector::end", "gmlc/containers/StableBlockVector.hpp::StableBlockVector::push_back", "gmlc/containers/StableBlockVector.hpp::StableBlockVector::blockCheck", "gmlc/containers/BlockIterator.hpp::BlockIterator::operator++", "gmlc/containers/BlockIterator.hpp::BlockIterator::check"]}
{"id": "C154", "title": "Iterators of a StableBlockDeque stay usable while elements are added and removed at the ends", "statement": "An iterator to an element of a StableBlockDeque, kept while elements are added and removed at both ends, can still be dereferenced and gives that element, and a loop from it to the new end() sees the elements from its position on.", "quantifier": "every history, element, and sequence of push_back, push_front, pop_back, pop_front and shrink_to_fit calls that keeps the element", "why_tests_cant": "whether an old iterator still works depends on how much was added at either end since it was taken", "anchors": ["gmlc/containers/StableBlockDeque.hpp::StableBlockDeque::begin", "gmlc/containers/StableBlockDeque.hpp::StableBlockDeque::end", "gmlc/containers/StableBlockDeque.hpp::StableBlockDeque::push_back", "gmlc/containers/StableBlockDeque.hpp::StableBlockDeque::push_front", "gmlc/containers/StableBlockDeque.hpp::StableBlockDeque::blockCheck", "gmlc/containers/StableBlockDeque.hpp::StableBlockDeque::blockCheckFront", "gmlc/containers/BlockIterator.hpp::BlockIterator::operator++", "gmlc/containers/BlockIterator.hpp::BlockIterator::check"]}
{"id": "C155", "title": "An element of a StableBlockVector can be appended to the same vector", "statement": "push_back(v[k]), emplace_back(v[k]) and push_back(std::move(v[k])) on the same vector v append the value that element k had before the call, also when the call needs a new block or a larger pointer array; everything seen later is as for a sequence with that value appended (and the moved-from value at k).", "quantifier": "every history, every element k, copied or moved, every value the move leaves behind, and every later program", "why_tests_cant": "the reference is read after memory has been rearranged; tests would have to hit each size at which a block or the pointer array is added", "anchors": ["gmlc/containers/StableBlockVector.hpp::StableBlockVector::push_back", "gmlc/containers/StableBlockVector.hpp::StableBlockVector::emplace_back", "gmlc/containers/StableBlockVector.hpp::StableBlockVector::blockCheck", "gmlc/containers/StableBlockVector.hpp::StableBlockVector::getNewBlock"]}
{"id": "C156", "title": "An element of a StableBlockDeque can be added at either end of the same deque", "statement": "push_back(v[k]), push_front(v[k]), the emplace and the moving forms, with an element of the same deque as argument, add the value that element k had before the call, also when the call needs a new block or moves the pointer array; everything seen later is as for a sequence with that value added (and the moved-from value in the old place).", "quantifier": "every history, every element k, either end, copied or moved, every value the move leaves behind, and every later program", "why_tests_cant": "the reference is read after memory has been rearranged; tests would have to hit each position at which a block is added or the pointer array changed", "anchors": ["gmlc/containers/StableBlockDeque.hpp::StableBlockDeque::push_back", "gmlc/containers/StableBlockDeque.hpp::StableBlockDeque::push_front", "gmlc/containers/StableBlockDeque.hpp::StableBlockDeque::emplace_back", "gmlc/containers/StableBlockDeque.hpp::StableBlockDeque::emplace_front", "gmlc/containers/StableBlockDeque.hpp::StableBlockDeque::blockCheck", "gmlc/containers/StableBlockDeque.hpp::StableBlockDeque::blockCheckFront"]}
{"id": "C157", "title": "std::swap exchanges two StableBlockVectors", "statement": "std::swap(a, b), which uses the move constructor, two move assignments and the destructor of the temporary, exchanges two StableBlockVectors (also moved-from ones, also a vector with itself): every later program sees the contents exchanged, no element is touched, no memory is allocated or freed, so references, pointers and iterators follow the elements into the other vector.", "quantifier": "any two vectors in any state, and every later program", "why_tests_cant": "each moved-from state is used as the target of the next assignment; a member forgotten in one of them shows only for some states", "anchors": ["gmlc/containers/StableBlockVector.hpp::StableBlockVector::StableBlockVector(StableBlockVector&&)", "gmlc/containers/StableBlockVector.hpp::StableBlockVector::operator=(StableBlockVector&&)", "gmlc/containers/StableBlockVector.hpp::StableBlockVector::~StableBlockVector"]}
{"id": "C158", "title": "std::swap exchanges two CircularBuffers or two StackBuffers", "statement": "std::swap(a, b) on two CircularBuffers or two StackBuffers (also moved-from ones, also a buffer with itself, also when no memory is left) exchanges them: no memory is allocated, freed or written, and every later program sees what it would have seen without the exchange with the two names exchanged.", "quantifier": "any two buffers in any state, every later program, and every pattern of failing allocations", "why_tests_cant": "each moved-from state is the target of the next assignment, whose first step deletes its memory; a pointer or size left behind shows only for some states", "anchors": ["gmlc/containers/CircularBuffer.hpp::CircularBuffer::operator=(CircularBuffer&&)", "gmlc/containers/CircularBuffer.hpp::CircularBuffer::CircularBuffer(CircularBuffer&&)", "gmlc/containers/StackBuffer.hpp::StackBuffer::operator=(StackBuffer&&)", "gmlc/containers/StackBuffer.hpp::StackBuffer::StackBuffer(StackBuffer&&)"]}
{"id": "C159", "title": "std::swap exchanges two StableBlockDeques", "statement": "std::swap(a, b), which uses the move constructor, two move assignments and the destructor of the temporary, exchanges two StableBlockDeques (also moved-from ones, also a deque with itself): every later program sees the contents exchanged, no element is touched, no memory is allocated or freed, so references, pointers and iterators follow the elements into the other deque.", "quantifier": "any two deques in any state, and every later program", "why_tests_cant": "each moved-from state is used as the target of the next assignment; a member forgotten in one of them shows only for some states", "anchors": ["gmlc/containers/StableBlockDeque.hpp::StableBlockDeque::StableBlockDeque(StableBlockDeque&&)", "gmlc/containers/StableBlockDeque.hpp::StableBlockDeque::operator=(StableBlockDeque&&)", "gmlc/containers/StableBlockDeque.hpp::StableBlockDeque::~StableBlockDeque"]}
{"id": "C160", "title": "A SimpleQueue moved from object to object is one queue", "statement": "Over its whole life, however often it is moved to another object by move construction, move assignment or std::swap, a SimpleQueue behaves as one FIFO queue: the calls made on it in all these objects, in order, by any number of threads in each, form one linearizable history. std::swap(a, b) lets a continue the history of b and b that of a.", "quantifier": "every sequence of uses and moves, any number of threads and every interleaving in each use, every value", "why_tests_cant": "the contents are in two containers and a flag, which a move treats separately; tests move queues in few of their states and only once", "anchors": ["gmlc/containers/SimpleQueue.hpp::SimpleQueue::SimpleQueue(SimpleQueue&&)", "gmlc/containers/SimpleQueue.hpp::SimpleQueue::operator=(SimpleQueue&&)"]}
{"id": "C161", "title": "A BlockingQueue moved from object to object is one queue", "statement": "Over its whole life, however often it is moved to another object by move construction, move assignment or std::swap, a BlockingQueue behaves as one FIFO queue: the calls made on it in all these objects, in order, by any number of threads in each, form one linearizable history. std::swap(a, b) lets a continue the history of b and b that of a.", "quantifier": "every sequence of uses and moves, any number of threads and every interleaving in each use, every value", "why_tests_cant": "the contents are in two containers and a flag, which a move treats separately; tests move queues in few of their states and only once", "anchors": ["gmlc/containers/BlockingQueue.hpp::BlockingQueue::BlockingQueue(BlockingQueue&&)", "gmlc/containers/BlockingQueue.hpp::BlockingQueue::operator=(BlockingQueue&&)"]}
{"id": "C162", "title": "A BlockingPriorityQueue moved from object to object is one queue", "statement": "Over its whole life, however often it is moved to another object by move construction, move assignment or std::swap, a BlockingPriorityQueue behaves as one queue with a priority level and a normal level: the calls made on it in all these objects, in order, by any number of threads in each, form one linearizable history. std::swap(a, b) lets a continue the history of b and b that of a.", "quantifier": "every sequence of uses and moves, any number of threads and every interleaving in each use, every value", "why_tests_cant": "the contents are in two containers and a flag, which a move treats separately; tests move queues in few of their states and only once", "anchors": ["gmlc/containers/BlockingPriorityQueue.hpp::BlockingPriorityQueue::BlockingPriorityQueue(BlockingPriorityQueue&&)", "gmlc/containers/BlockingPriorityQueue.hpp::BlockingPriorityQueue::operator=(BlockingPriorityQueue&&)"]}
{"id": "C163", "title": "std::swap exchanges two MappedVector or DualMappedVector objects and nothing else", "statement": "After std::swap(a, b) of two MappedVector or DualMappedVector objects, in whatever state they are, also moved from or one and the same object, a is what b was and b is what a was: every sequence of later calls on any objects has the outcome it would have had without the swap with a and b exchanged in the calls. No object is created, deleted, copied or destroyed, so pointers and references to elements stay valid.", "quantifier": "every two objects in any reachable or moved-from state, whatever state the library leaves moved-from maps in, every sequence of later calls", "why_tests_cant": "the containers have several members that are moved separately, and the temporary's destructor runs on a moved-from object; tests do not swap containers", "anchors": ["gmlc/containers/MappedVector.hpp::MappedVector", "gmlc/containers/DualMappedVector.hpp::DualMappedVector"]}
{"id": "C164", "title": "std::swap exchanges two MappedPointerVector or DualMappedPointerVector objects and nothing else", "statement": "After std::swap(a, b) of two MappedPointerVector or DualMappedPointerVector objects, in whatever state they are, also moved from or one and the same object, a is what b was and b is what a was: every sequence of later calls on any objects has the outcome it would have had without the swap with a and b exchanged in the calls. No object is created, deleted, copied or destroyed, so pointers and references to elements stay valid.", "quantifier": "every two objects in any reachable or moved-from state, whatever state the library leaves moved-from maps in, every sequence of later calls", "why_tests_cant": "the containers have several members that are moved separately, and the temporary's destructor runs on a moved-from object; tests do not swap containers", "anchors": ["gmlc/containers/MappedPointerVector.hpp::MappedPointerVector::operator=(MappedPointerVector&&)", "gmlc/containers/DualMappedPointerVector.hpp::DualMappedPointerVector::operator=(DualMappedPointerVector&&)"]}
{"id": "C165", "title": "std::swap exchanges two StringMappedVector or DualStringMappedVector objects and nothing else", "statement": "After std::swap(a, b) of two StringMappedVector or DualStringMappedVector objects, in whatever state they are, also moved from or one and the same object, a is what b was and b is what a was: every sequence of later calls on any objects has the outcome it would have had without the swap with a and b exchanged in the calls. No object is created, deleted, copied or destroyed, so pointers and references to elements stay valid.", "quantifier": "every two objects in any reachable or moved-from state, whatever state the library leaves moved-from maps in, every sequence of later calls", "why_tests_cant": "the containers have several members that are moved separately, and the temporary's destructor runs on a moved-from object; tests do not swap containers", "anchors": ["gmlc/containers/StringMappedVector.hpp::StringMappedVector", "gmlc/containers/DualStringMappedVector.hpp::DualStringMappedVector"]}
{"id": "C166", "title": "std::swap exchanges two work blocks and nothing else", "statement": "After std::swap(a, b) of two different work blocks, in whatever state they are (finished or not, moved from), a is what b was and b is what a was: every later program has the answers, and runs the functions in the order, that it would have had with a and b exchanged in it and without the swap. The swap runs no function and breaks no promise: futures taken before are as they were.", "quantifier": "every state of the two blocks, any number of other blocks and futures, every later sequence of calls", "why_tests_cant": "a block has a task, a future and two flags, and the temporary's destruction or an assignment could break promises; tests do not swap blocks", "anchors": ["gmlc/containers/WorkQueue.hpp::WorkBlock::WorkBlock(WorkBlock&&)", "gmlc/containers/WorkQueue.hpp::WorkBlock::operator=(WorkBlock&&)"]}
{"id": "C167", "title": "Move assignment to a SimpleQueue in use is atomic", "statement": "b = std::move(a), where a has no call in progress and b is being used by any number of threads, takes effect at one moment during the call: at that moment the contents of b become those of a, in order, what b held is discarded, and empty() agrees with the contents. Every history of calls on b, assignments included, is that of a FIFO queue whose assignment replaces the contents (after pushVector of an empty vector: except for what empty() says, see C45). No assignment deadlocks, races with another call on b for its elements, or fails to return.", "quantifier": "every history of the source queue, every number of threads, every interleaving of calls and assignments on the target", "why_tests_cant": "the assignment writes two vectors and a flag one after the other while other threads push, pop and read the flag without a lock; tests move queues only while no other thread runs", "anchors": ["gmlc/containers/SimpleQueue.hpp::SimpleQueue::operator=(SimpleQueue&&)", "gmlc/containers/SimpleQueue.hpp::SimpleQueue::pop", "gmlc/containers/SimpleQueue.hpp::SimpleQueue::empty"]}
{"id": "C168", "title": "Threads waiting in pop get the elements of a queue that is move-assigned", "statement": "If threads wait in pop of a BlockingQueue or BlockingPriorityQueue b and b = std::move(a) gives it elements, a waiting thread is woken and takes the first of them.", "quantifier": "every state of b with a waiting thread, every source, every later sequence of insertions by any number of threads", "why_tests_cant": "a lost wakeup shows only as a thread that hangs, for particular orders of the assignment and the wait; tests move queues only while no other thread runs", "anchors": ["gmlc/containers/BlockingQueue.hpp::BlockingQueue::operator=(BlockingQueue&&)", "gmlc/containers/BlockingPriorityQueue.hpp::BlockingPriorityQueue::operator=(BlockingPriorityQueue&&)", "gmlc/containers/BlockingQueue.hpp::BlockingQueue::pop"]}

{"id": "C01", "title": "HIID wildcard matching decides pattern overlap", "statement": "HIID::matches(p,q) returns true exactly when there is a wildcard-free identifier that both p and q denote, where '?' stands for any one component and '*' for any (possibly empty) remainder. In particular matching is symmetric, and a concrete id is matched by a pattern iff it belongs to the pattern's language.", "quantifier": "all pairs of HIIDs of any length, with '?' and '*' in any position", "why_tests_cant": "the identifier space is infinite and the claim quantifies over an existential witness identifier for every pair of patterns", "anchors": ["DMI/src/HIID.cc: HIID::matches", "DMI/src/AtomicID.h: AtomicID::matches"]}
{"id": "C02", "title": "HIID subsetOf decides pattern inclusion", "statement": "p.subsetOf(q) returns true exactly when every wildcard-free identifier denoted by p is also denoted by q; hence subsetOf is reflexive and transitive, and implies matches.", "quantifier": "all pairs (triples for transitivity) of HIIDs of any length", "why_tests_cant": "language inclusion ranges over infinitely many identifiers", "anchors": ["DMI/src/HIID.cc: HIID::subsetOf"]}
{"id": "C03", "title": "HIID binary form round-trips", "statement": "Unpacking the packed form of an identifier yields the same identifier, the packed form has exactly 4 bytes per component, and unpacking succeeds exactly on blocks whose size is a multiple of 4.", "quantifier": "all identifiers of any length and all byte blocks", "why_tests_cant": "unbounded identifier length and every 32-bit component value", "anchors": ["DMI/src/HIID.cc: HIID::pack, HIID::unpack, HIID::packSize", "DMI/src/HIID.h"]}
{"id": "C04", "title": "HIID ordering is a strict total order", "statement": "The ordering used to key records and maps is irreflexive, transitive and trichotomous with respect to identifier equality.", "quantifier": "all pairs and triples of HIIDs of any length", "why_tests_cant": "a total-order law ranges over all triples of unbounded sequences", "anchors": ["DMI/src/HIID.cc: HIID::operator <, HIID::operator =="]}
{"id": "C05", "title": "Index popping keeps the rest of an identifier intact", "statement": "popLeadIndex (popTrailIndex) removes exactly the first (last) component and returns its value iff that component is a numeric index; otherwise the identifier is unchanged and 0 is returned.", "quantifier": "all identifiers of any length", "why_tests_cant": "unbounded length, every component value", "anchors": ["DMI/src/HIID.cc: HIID::popLeadIndex, HIID::popTrailIndex", "DMI/src/AtomicID.h: AtomicID::index"]}
{"id": "C06", "title": "Splitting at a slash is a decomposition", "statement": "splitAtSlash returns the part before the first '/' and leaves the part after it, the returned part contains no slash, and joining the two with one '/' gives back the original; if there is no slash the whole id is returned and the remainder is empty.", "quantifier": "all identifiers of any length", "why_tests_cant": "unbounded length, arbitrary slash positions", "anchors": ["DMI/src/HIID.cc: HIID::splitAtSlash"]}
{"id": "C07", "title": "The atomic-id registry maps names and numbers consistently", "statement": "After any sequence of registrations a name registered for an id is found again, and looking up an id and then its name returns the same id provided no name (compared without regard to case) was registered for two ids.", "quantifier": "all sequences of registrations, including re-registrations", "why_tests_cant": "arbitrary registration histories (dynamic registration by modules loaded in any order)", "anchors": ["DMI/src/Registry.h: UniRegistry::add, BiRegistry::add, BiRegistry::rfind", "DMI/src/AtomicID.cc"]}
{"id": "C08", "title": "Counted references neither leak nor double-free", "statement": "In every sequence of reference operations an object owned by references is alive as long as at least one reference points to it, and is destroyed exactly once, at the moment its last reference goes away; objects attached as external are never destroyed; the reported reference count equals the number of attached references.", "quantifier": "all interleavings of attach, copy, transfer, privatize, detach over any number of references and objects", "why_tests_cant": "object lifetime is a property of all finite operation histories", "anchors": ["DMI/src/CountedRefBase.cc: attach, copy, xfer, privatize, detach", "DMI/src/CountedRefBase.h", "DMI/src/CountedRefTarget.h"]}
{"id": "C09", "title": "Copy-on-write isolation", "statement": "A write through one reference is never visible through another reference, unless the writing reference was explicitly attached/copied as SHARED.", "quantifier": "all histories of reference operations and writes", "why_tests_cant": "isolation is a non-interference property over all histories", "anchors": ["DMI/src/CountedRefBase.cc: privatize, getTargetWr", "DMI/src/CountedRefBase.h: isDirectlyWritable"]}
{"id": "C10", "title": "Locked references are immovable", "statement": "A locked reference can be neither detached nor transferred nor re-attached: such a request fails and leaves all references, counts and objects unchanged.", "quantifier": "all reachable states and operations", "why_tests_cant": "must hold in every reachable state", "anchors": ["DMI/src/CountedRefBase.cc: detach, xfer, attach"]}
{"id": "C11", "title": "A block set reports its true total size and is FIFO", "statement": "The reported size of a block set equals the number of blocks it holds after any sequence of push/pop/move/copy/clear/flush operations, blocks come out in the order in which they were put in, and reading through the cursor in chunks of any sizes hands out exactly the concatenated contents.", "quantifier": "all operation histories", "why_tests_cant": "accounting invariants over all histories", "anchors": ["DMI/src/BlockSet.cc: push, pop, pushCopy, popMove, flushToCursor", "DMI/src/BlockSet.h"]}
{"id": "C12", "title": "A record behaves as a finite map", "statement": "After any sequence of field insertions, replacements and removals each field reads back the last value stored under that identifier; inserting an existing field without REPLACE and touching a protected field while honouring protection fail and change nothing.", "quantifier": "all histories over all identifiers", "why_tests_cant": "history-dependent, unbounded number of fields", "anchors": ["DMI/src/Record.cc: addField, removeField, protectField, get, merge"]}
{"id": "C13", "title": "Record merge is a left- or right-biased union", "statement": "merge(other,overwrite) yields a record whose fields are exactly the union of both; for a common unprotected field the value is the other's iff overwrite; protected fields of the target are never altered.", "quantifier": "all pairs of records", "why_tests_cant": "ranges over all pairs of finite maps of unbounded size", "anchors": ["DMI/src/Record.cc: Record::merge"]}
{"id": "C14", "title": "List indexing and editing agree with a sequence", "statement": "get/put/insert/append/remove on a DMI list act as on a finite sequence, negative indices count from the end (-1 is the last element), and out-of-range indices are reported as errors, never undefined behaviour.", "quantifier": "all lists, all integer positions, read-only and writable access", "why_tests_cant": "every index including negative ones and the empty list", "anchors": ["DMI/src/List.cc: applyIndexConst, applyIndex, get, put, insert, remove"]}
{"id": "C15", "title": "Records and lists survive serialisation", "statement": "Converting a record (list) to a block set and back yields an equal record (list) and consumes exactly the blocks produced, so that containers nested to any depth round-trip.", "quantifier": "all records and lists nested to any depth, followed by any further blocks", "why_tests_cant": "unbounded nesting depth and width", "anchors": ["DMI/src/Record.cc: toBlock, fromBlock", "DMI/src/List.cc: toBlock, fromBlock"]}
{"id": "C16", "title": "Time stamps are exact and normalised", "statement": "Adding and subtracting time stamps is exact integer microsecond arithmetic; results always have 0 <= usec < 10^6; comparisons agree with comparison of total microseconds.", "quantifier": "all pairs of normalised time stamps", "why_tests_cant": "all integers, all carries/borrows", "anchors": ["DMI/src/Timestamp.h: operator +=, operator -=, normalize, comparison operators"]}
{"id": "C17", "title": "Sequence packer round-trips", "statement": "Unpacking the packed representation of a sequence gives the sequence back, and the reported pack size is the number of bytes written, both for fixed-size and variable-size elements.", "quantifier": "all sequences of any length over any element type whose own packer round-trips", "why_tests_cant": "unbounded lengths; polymorphic in the element packer", "anchors": ["DMI/src/Packer.h: SeqPacker::pack, unpack, packSize"]}
{"id": "C18", "title": "Map packer round-trips", "statement": "Unpacking the packed representation of a map gives the map back and the reported pack size equals the number of bytes written.", "quantifier": "all finite maps, fixed- and variable-size keys and values", "why_tests_cant": "unbounded sizes; four combinations of fixed/variable encodings", "anchors": ["DMI/src/Packer.h: MapPacker::pack, unpack, packSize"]}
{"id": "C19", "title": "Object files are read back exactly, and truncation is never read as data", "statement": "Reading a file written by a sequence of object writes returns the same objects in the same order and then end-of-file; reading any proper prefix of that file returns a prefix of the objects, followed by end-of-file or an error.", "quantifier": "all sequences of objects with non-empty blocks, all truncation points", "why_tests_cant": "every crash point (prefix length) of every file", "anchors": ["DMI/src/BOIO.cc: write, nextType, readAny"]}
{"id": "C20", "title": "Subscription matching reflects exactly the current subscriptions", "statement": "After any history of subscribe, unsubscribe, clear and merge, a message is accepted iff some currently subscribed (id pattern, scope address) pair matches both the message id and the sender address.", "quantifier": "all histories and all messages", "why_tests_cant": "history-dependent and quantified over all messages", "anchors": ["OCTOPUSSY/src/Subscriptions.cc: add, remove, clear, merge, matches"]}
{"id": "C21", "title": "Subscription sets survive packing", "statement": "pack followed by unpack yields the same subscriptions, and the cached pack size is exactly the number of bytes written, after any history of changes.", "quantifier": "all subscription sets reachable by any history", "why_tests_cant": "depends on the history through the cached size", "anchors": ["OCTOPUSSY/src/Subscriptions.cc: pack, unpack, packSize"]}
{"id": "C22", "title": "Worker-process message queues are priority-ordered and FIFO within a priority", "statement": "For any history of deliveries and removals the queue is ordered by non-increasing priority, messages of equal priority are handled in order of arrival, and no message is lost or duplicated by queueing.", "quantifier": "all enqueue/dequeue histories", "why_tests_cant": "ordering invariant over all histories", "anchors": ["OCTOPUSSY/src/WPInterface.cc: enqueue, dequeue", "OCTOPUSSY/src/WPInterface.h"]}
{"id": "C23", "title": "The dispatcher runs the worker with the most urgent message", "statement": "The poll loop always serves a worker whose head priority is maximal among all workers with work, and stops only if no work is left or the loop budget is exhausted.", "quantifier": "all sets of workers and queue contents", "why_tests_cant": "all schedules", "anchors": ["OCTOPUSSY/src/Dispatcher.cc: poll", "OCTOPUSSY/src/WPInterface.cc: getPollPriority"]}
{"id": "C24", "title": "Worker addresses are unique", "statement": "No two attached worker processes ever have the same address, for any history of attach/detach of named classes; a new worker never reuses an address currently in use.", "quantifier": "all attach/detach histories", "why_tests_cant": "uniqueness over all histories", "anchors": ["OCTOPUSSY/src/Dispatcher.cc: attach, detach"]}
{"id": "C25", "title": "Point-to-point and published messages reach exactly the addressed workers", "statement": "A message sent to a specific address is queued by exactly that worker if it is local and attached; a broadcast/published message is queued by exactly those attached workers whose subscriptions match, once each.", "quantifier": "all sets of attached workers, subscriptions and messages", "why_tests_cant": "ranges over all configurations", "anchors": ["OCTOPUSSY/src/Dispatcher.cc: send", "OCTOPUSSY/src/WPInterface.cc: deliver"]}
{"id": "C26", "title": "Removing an event source only removes that source", "statement": "removeTimeout/removeInput/removeSignal remove exactly the requested registration and leave all others, including those of other workers, in place and in order.", "quantifier": "all registration histories", "why_tests_cant": "histories, interleaved owners", "anchors": ["OCTOPUSSY/src/Dispatcher.cc: addTimeout, removeTimeout, addInput, removeInput, addSignal, removeSignal"]}
{"id": "C27", "title": "Messages survive the wire", "statement": "A message converted to blocks and back keeps its id, addresses, priority, state, payload block and payload object.", "quantifier": "all messages, with and without each payload kind", "why_tests_cant": "all payloads and field values", "anchors": ["OCTOPUSSY/src/Message.cc: toBlock, fromBlock"]}
{"id": "C28", "title": "Request-id difference masks are exact", "statement": "diffMask(a,b) has bit i set iff component i of the two request ids differ (missing components counting as 0), and maskedCompare(a,b,m) is true iff all components selected by m agree.", "quantifier": "all request ids of any length and all masks", "why_tests_cant": "unbounded id length, every mask", "anchors": ["MEQ/src/RequestId.cc: RqId::diffMask, maskedCompare, maskSubId, setSubId, incrSubId"]}
{"id": "C29", "title": "Changing a dependency bumps the request id in exactly its components", "statement": "setSubId/incrSubId with a dependency mask change exactly the components selected by the mask and leave every other component as it was; consequently the difference mask of old and new id is contained in the mask.", "quantifier": "all ids, masks and values", "why_tests_cant": "unbounded", "anchors": ["MEQ/src/RequestId.cc", "MEQ/src/Forest.cc: incrRequestId"]}
{"id": "C30", "title": "Symbolic dependency masks are consistent", "statement": "After any sequence of set/load/setActive the active mask equals the OR of the masks of the active symbolic dependencies.", "quantifier": "all histories", "why_tests_cant": "history-dependent cached value", "anchors": ["MEQ/src/SymdepMap.cc: set, load, getMask, setActive", "MEQ/src/SymdepMap.h"]}
{"id": "C31", "title": "Node result caching is transparent", "statement": "For any node whose result depends only on the request-id components in its reported dependency mask, serving results from the cache returns exactly the result a fresh evaluation would produce, for every history of requests, cache clears and cache policies.", "quantifier": "all request histories, all dependency masks, all cache policies, all points at which the cache is dropped", "why_tests_cant": "needs every history; a stale cache shows up only in particular sequences", "anchors": ["MEQ/src/Node.cc: getCachedResult, cacheResult, clearCache, holdCache, execute", "MEQ/src/Node.h: Node::Cache"]}
{"id": "C32", "title": "Forest indices and names identify nodes uniquely", "statement": "After any history of node creations and deletions: every live node is found under its index and under its name, no two live nodes share a name, the node count is the number of live nodes, and a failed creation leaves the forest unchanged.", "quantifier": "all create/delete histories", "why_tests_cant": "history-dependent, index reuse", "anchors": ["MEQ/src/Forest.cc: create, remove, get, findIndex, findNode, clear"]}
{"id": "C33", "title": "Breakpoint flags and masks agree, single-shot breakpoints fire once", "statement": "A node is flagged as having a (single-shot) breakpoint iff its breakpoint mask is non-empty; a single-shot breakpoint stops execution at most once; persistent breakpoints keep firing.", "quantifier": "all histories of set/clear/execute", "why_tests_cant": "histories", "anchors": ["MEQ/src/Node.cc: setBreakpoint, clearBreakpoint, setExecState", "MEQ/src/Forest.cc: setBreakpoint, clearBreakpoint", "MEQ/src/Forest.h: checkGlobalBreakpoints"]}
{"id": "C34", "title": "Child poll order is always a permutation of the children", "statement": "Whatever poll orders are requested, successfully or not, every child is polled exactly once per request.", "quantifier": "all sequences of poll-order settings over any set of children", "why_tests_cant": "histories with failing calls", "anchors": ["MEQ/src/NodeNursery.cc: init, setChildPollOrder, setChild"]}
{"id": "C35", "title": "Synchronous polling combines child outcomes faithfully", "statement": "A synchronous poll asks the enabled children in poll order, stops only according to the fail/missing-data policy, returns the OR of the children's codes, and reports every child failure unless the policy is to ignore it.", "quantifier": "all numbers of children, outcomes and policies", "why_tests_cant": "all combinations", "anchors": ["MEQ/src/NodeNursery.cc: syncPoll"]}
{"id": "C36", "title": "Work orders are executed exactly once", "statement": "Every work order placed in the worker pool is handed to exactly one thread, orders are handed out newest-first, cancelling a client's orders removes exactly those, and the number of busy threads at one depth never exceeds its limit by more than the documented slack.", "quantifier": "all interleavings of placing, fetching, finishing and cancelling", "why_tests_cant": "thread schedules", "anchors": ["MEQ/src/MTPool.cc: placeWorkOrder, getWorkOrder, finishWithWorkOrder, clearQueue"]}
{"id": "C37", "title": "Shape merging is a partial semilattice", "statement": "Merging array shapes is commutative, associative and idempotent; it fails iff two extents differ and both exceed 1; the merged shape is the least shape to which both broadcast.", "quantifier": "all shapes of any rank", "why_tests_cant": "algebraic laws over all shapes", "anchors": ["MEQ/src/Axis.h: mergeShape", "MEQ/src/Vells.h: isCompatible"]}
{"id": "C38", "title": "Broadcast arithmetic touches the right elements", "statement": "A binary operation on two congruent arrays yields, at each output index, the operation applied to the elements of the operands at that index with collapsed axes read at 0; no element outside the operand storage is read.", "quantifier": "all ranks, all pairs of congruent shapes, all element values", "why_tests_cant": "pointer stepping with incremental strides over unbounded ranks and extents", "anchors": ["MEQ/src/Vells.cc: computeStrides, implement_binary_*", "MEQ/src/Vells.h: DimCounter::incr, ConstStridedIterator::incr"]}
{"id": "C39", "title": "Flagged reductions count every point once", "statement": "sum, mean, product and nelements over a flagged array equal the reduction over the unflagged points of the fully expanded array.", "quantifier": "all shapes, flags and values", "why_tests_cant": "combination of broadcasting of data and flags", "anchors": ["MEQ/src/Vells.cc: implement_sum, implement_mean, implement_product, implement_nelements"]}
{"id": "C40", "title": "Slicing enumerates each slice once", "statement": "Iterating a slicer visits every combination of the non-sliced indices exactly once, in order, each time presenting the storage offset of that slice.", "quantifier": "all ranks, shapes and sets of sliced axes", "why_tests_cant": "pointer arithmetic over unbounded ranks", "anchors": ["MEQ/src/VellsSlicer.cc: init, incr", "MEQ/src/VellsSlicerWithFlags.cc: init, incr"]}
{"id": "C41", "title": "Domain envelopes are least upper bounds", "statement": "The envelope of two domains covers the ranges of both on every axis, and is covered by every domain that does; covering is a partial order; expanding in place gives the same domain.", "quantifier": "all domains over any axes", "why_tests_cant": "order-theoretic law over all domains", "anchors": ["MEQ/src/Domain.cc: envelope, expandToEnvelope, supersetOfProj"]}
{"id": "C42", "title": "Cell segments partition the grid", "statement": "The segments computed for an axis are contiguous, start at the first cell, end at the last cell, do not overlap, and inside a segment the spacing is uniform.", "quantifier": "all cell grids of any length", "why_tests_cant": "all grids", "anchors": ["MEQ/src/Cells.cc: recomputeSegments"]}
{"id": "C43", "title": "Changing resolution preserves the cell coverage", "statement": "Integrating by n and upsampling by n give grids with the stated number of cells covering the same interval; integrating an upsampled regular grid gives the grid back.", "quantifier": "all grids and factors", "why_tests_cant": "all sizes and factors", "anchors": ["MEQ/src/Cells.cc: Cells(op) constructor"]}
{"id": "C44", "title": "Cells comparison is equality of grids", "statement": "compare() returns 0 iff the two grids are the same; equality is reflexive and symmetric.", "quantifier": "all pairs of Cells, including empty ones", "why_tests_cant": "all pairs", "anchors": ["MEQ/src/Cells.cc: compare, operator =="]}
{"id": "C45", "title": "Merged perturbation lists are sorted unions", "statement": "The list of solvable-parameter ids of a function's result is the strictly increasing union of the children's lists.", "quantifier": "all numbers of children and id lists", "why_tests_cant": "in-place merge over unbounded lists", "anchors": ["MEQ/src/Function.cc: findSpids"]}
{"id": "C46", "title": "Solvable-parameter numbering is a bijection", "statement": "Making a funklet solvable assigns consecutive distinct ids to exactly the coefficients selected by the mask, and the index table maps each selected coefficient to its position and every other to -1; an update changes exactly the selected coefficients by their own increments.", "quantifier": "all masks and starting ids", "why_tests_cant": "all masks", "anchors": ["MEQ/src/Funklet.cc: makeSolvable", "MEQ/src/Polc.cc: do_update"]}
{"id": "C47", "title": "Changing a polynomial's normalisation does not change its value", "statement": "Re-expressing a polynomial with new offset and scale gives the same value at every point.", "quantifier": "all polynomials of any degree in one and two variables, all points, all non-zero scales", "why_tests_cant": "identity over infinitely many points", "anchors": ["MEQ/src/Polc.cc: transformCoeff, do_evaluate"]}
{"id": "C48", "title": "The parameter table returns what was stored", "statement": "A funklet stored for a parameter and domain is returned by later lookups for that parameter and any overlapping domain until it is overwritten or deleted; other entries are unaffected; domain numbers never change meaning.", "quantifier": "all histories of puts, gets and deletes", "why_tests_cant": "history-dependent store", "anchors": ["MEQ/src/FastParmTable.cc: putCoeff, getFunklet, getFunklets, deleteFunklet, makeKey"]}
{"id": "C49", "title": "A vellset's derived shape covers all its parts", "statement": "After any sequence of values, perturbed values and flags being set, the shape of a vellset is the merge of the shapes of its parts.", "quantifier": "all histories", "why_tests_cant": "histories", "anchors": ["MEQ/src/VellSet.cc: setShape, adjustShape, setValue, setPerturbedValue, setDataFlags"]}
{"id": "C50", "title": "Failures recorded in a result are not lost", "statement": "Every failure added to a vellset is reported afterwards.", "quantifier": "all sequences of failures", "why_tests_cant": "histories", "anchors": ["MEQ/src/VellSet.cc: addFail, numFails, getFail"]}
{"id": "C51", "title": "Extracting part of an identifier", "statement": "subId(pos, n) returns the n components starting at pos, clipped to the identifier, for every start position including negative ones counted from the end, and never reads outside the identifier.", "quantifier": "all identifiers, all start positions and counts", "why_tests_cant": "every position, including negative and out-of-range ones, for every length", "anchors": ["DMI/src/HIID.cc: HIID::subId"]}
{"id": "C52", "title": "Prepending a component keeps the rest", "statement": "push_front(a) yields the identifier consisting of a followed by the old identifier.", "quantifier": "all identifiers and components", "why_tests_cant": "every length", "anchors": ["DMI/src/HIID.cc: HIID::push_front"]}
{"id": "C53", "title": "Corrupt subscription blocks are reported", "statement": "Unpacking an arbitrary byte block as a subscription set either fails with an exception or yields a set whose packed form is exactly that block; it never reads outside the block.", "quantifier": "all byte blocks", "why_tests_cant": "all blocks, including adversarial size words", "anchors": ["OCTOPUSSY/src/Subscriptions.cc: unpack"]}
{"id": "C54", "title": "A worker never sleeps on unseen messages", "statement": "Whenever a message that its worker has not yet been offered is at the head of the worker's queue, the worker has asked to be polled.", "quantifier": "all histories of delivery, polling and removal", "why_tests_cant": "lost-wakeup property over all histories", "anchors": ["OCTOPUSSY/src/WPInterface.cc: enqueue, dequeue, do_poll", "OCTOPUSSY/src/Dispatcher.cc: poll"]}
{"id": "C55", "title": "An accepted message is handed out once", "statement": "A message that the receiving worker accepted is removed from its queue and never offered again.", "quantifier": "all queue states and everything the handler does", "why_tests_cant": "the handler may reenter the queue", "anchors": ["OCTOPUSSY/src/WPInterface.cc: do_poll"]}
{"id": "C56", "title": "Timeouts fire when due", "statement": "After any history of registering, removing and firing timeouts, an event check delivers exactly the timeouts that are due, each once; a one-shot timeout is then gone and a continuous one is next due one period after the check.", "quantifier": "all histories and clock readings", "why_tests_cant": "the check is skipped through a cached nearest deadline that must stay a lower bound over all histories", "anchors": ["OCTOPUSSY/src/Dispatcher.cc: addTimeout, removeTimeout, checkEvents"]}
{"id": "C57", "title": "Waiting messages age", "statement": "Every round that serves another worker increases the urgency of a waiting message relative to newly arriving ones, so no message waits for ever behind a bounded priority.", "quantifier": "all queue states and schedules", "why_tests_cant": "liveness over all schedules", "anchors": ["OCTOPUSSY/src/WPInterface.cc: getPollPriority", "OCTOPUSSY/src/Dispatcher.cc: poll"]}
{"id": "C58", "title": "An idle dispatcher has no work left", "statement": "Whenever the poll loop finds nothing to run, no attached worker has a message it has not been offered.", "quantifier": "all histories", "why_tests_cant": "depends on all earlier deliveries and polls", "anchors": ["OCTOPUSSY/src/Dispatcher.cc: poll", "OCTOPUSSY/src/WPInterface.cc: getPollPriority"]}
{"id": "C59", "title": "Each ready descriptor is reported once to each interested worker", "statement": "An event check sends, for every registered (worker, descriptor) with some ready wanted kind, exactly one event listing exactly the wanted kinds that are ready; fired one-shot registrations are gone and all others stay.", "quantifier": "all registration histories and all readiness outcomes", "why_tests_cant": "all histories and all subsets of ready descriptors", "anchors": ["OCTOPUSSY/src/Dispatcher.cc: checkEvents, rebuildInputs"]}
{"id": "C60", "title": "Identifiers are read back from their own text", "statement": "Printing an identifier and parsing the text yields the same identifier, for symbolic, numeric and literal components joined plainly, by slashes or by range signs.", "quantifier": "all identifiers of any length over all registries of names", "why_tests_cant": "unbounded length, arbitrary registered names and literal strings", "anchors": ["DMI/src/HIID.cc: toString, addString, makeLiteral", "DMI/src/AtomicID.cc: toString, findName"]}
{"id": "C61", "title": "Removing a field hands back its value", "statement": "removeField(id) returns a reference to the object the field held and leaves the record without that field.", "quantifier": "all records and fields, attached or still packed", "why_tests_cant": "all combinations of how the field got its value", "anchors": ["DMI/src/Record.h: Field::xfer", "DMI/src/Record.cc: Field::makeObject, removeField"]}
{"id": "C62", "title": "Container access to record fields is always defined", "statement": "Reading or writing a field through the container interface, by name or by number, returns the field, reports it missing, or fails; it is never undefined behaviour.", "quantifier": "all records, all identifiers and numbers", "why_tests_cant": "all field numbers and record sizes", "anchors": ["DMI/src/Record.cc: get(HIID,ContentInfo)"]}
{"id": "C63", "title": "Appending a list appends its items once", "statement": "append(other) adds the items of the other list, in order, also if it is the same list.", "quantifier": "all lists", "why_tests_cant": "non-termination cannot be observed by a test", "anchors": ["DMI/src/List.cc: append(const List&)"]}
{"id": "C64", "title": "Corrupted blocks are rejected", "statement": "Reconstructing containers from an arbitrary block set returns or fails, but never is undefined behaviour.", "quantifier": "all block sets", "why_tests_cant": "all byte strings", "anchors": ["DMI/src/Record.cc: fromBlock", "DMI/src/List.cc: fromBlock", "DMI/src/DynamicTypeManager.cc: construct"]}
{"id": "C65", "title": "Arrays survive packing", "statement": "pack followed by unpack of a C array of elements yields the same elements.", "quantifier": "all arrays and element packers", "why_tests_cant": "unbounded lengths and element sizes", "anchors": ["DMI/src/Packer.h: ArrayPacker"]}
{"id": "C66", "title": "Rewinding an object file", "statement": "After reading an object file to its end and rewinding it, the same objects can be read again.", "quantifier": "all files and read positions", "why_tests_cant": "all read positions", "anchors": ["DMI/src/BOIO.cc: rewind, nextType, readAny"]}
{"id": "C67", "title": "A failed write does not spoil an object file", "statement": "If writing an object fails, objects written before and after are still read back.", "quantifier": "all sequences of writes", "why_tests_cant": "every failing object at every place in the file", "anchors": ["DMI/src/BOIO.cc: write, readAny"]}
{"id": "C68", "title": "Damaged messages are rejected", "statement": "Reading a message from an arbitrary block set returns a message or fails, but never is undefined behaviour.", "quantifier": "all block sets", "why_tests_cant": "all byte strings from the network", "anchors": ["OCTOPUSSY/src/Message.cc: fromBlock"]}
{"id": "C69", "title": "A changed dependency always gives a new request id", "statement": "A request id obtained by announcing a change of a symbolic dependency differs, in the components of that dependency, from every request id made before it, so no cached result depending on it is reused.", "quantifier": "all histories of changes of all dependencies", "why_tests_cant": "unbounded histories", "anchors": ["MEQ/src/Forest.cc: incrRequestId", "MEQ/src/RequestId.cc: setSubId"]}
{"id": "C70", "title": "Multithreaded polling", "statement": "Under every schedule of the worker threads a multithreaded poll comes to its end, has then computed every enabled child exactly once, and returns the same code as the single-threaded poll.", "quantifier": "all schedules, children, outcomes and policies", "why_tests_cant": "thread schedules", "anchors": ["MEQ/src/NodeNursery.cc: syncPoll, mt_receiveSyncChildResult"]}
{"id": "C71", "title": "Compatibility of shapes", "statement": "The compatibility test of two arrays succeeds exactly when the first can be expanded to the shape of the second.", "quantifier": "all pairs of shapes", "why_tests_cant": "shapes of any rank", "anchors": ["MEQ/src/Vells.h: isCompatible"]}
{"id": "C72", "title": "Maximum and minimum of a flagged array", "statement": "The maximum (minimum) reduction returns the largest (smallest) unflagged value of the array expanded to its grid.", "quantifier": "all arrays, flag arrays, flag masks and grids with an unflagged point", "why_tests_cant": "all values, shapes and patterns of flags", "anchors": ["MEQ/src/Vells.cc: reduction functions max, min"]}
{"id": "C73", "title": "Envelopes pass the superset test", "statement": "The superset test says whether a domain includes the other's projection onto its own axes; the envelope of two domains passes it against both.", "quantifier": "all pairs of domains", "why_tests_cant": "all ranges and sets of axes", "anchors": ["MEQ/src/Domain.cc: supersetOfProj, envelope"]}
{"id": "C74", "title": "Combining cells", "statement": "The superset of two Cells is empty exactly if they conflict on an axis both have; otherwise it has the cells of one or the other along every axis of either, and their domain if each fills its domain.", "quantifier": "all pairs of proper Cells", "why_tests_cant": "all grids and sets of axes", "anchors": ["MEQ/src/Cells.cc: superset, recomputeDomain, setCells"]}
{"id": "C75", "title": "Resampling by nothing changes nothing", "statement": "The resampling constructor without any operation gives Cells that compare equal to the original.", "quantifier": "all proper Cells", "why_tests_cant": "all grids and ranks", "anchors": ["MEQ/src/Cells.cc: Cells(op) constructor, operator =="]}
{"id": "C76", "title": "A regular grid divides its range", "statement": "Setting a regular grid of n cells of default size over a range gives n equal cells without gaps that start and end where the range does, and leaves the other axes alone.", "quantifier": "all ranges and numbers of cells", "why_tests_cant": "all sizes", "anchors": ["MEQ/src/Cells.cc: setCells"]}
{"id": "C77", "title": "Perturbed values of a function", "statement": "A function's result depends on exactly the parameters its children depend on; its perturbed value for a parameter is the function of the children's perturbed values for it (main values for children that do not depend on it), with the children's common perturbation; evaluation succeeds exactly if all those evaluations do, shapes fit and perturbations agree; nothing is read out of bounds.", "quantifier": "all functions, numbers of children, parameters and values", "why_tests_cant": "all combinations of dependencies of any number of children", "anchors": ["MEQ/src/Function.cc: getResult", "MEQ/src/VellSet.h: isDefined"]}
{"id": "C78", "title": "Planes and return code of a function's result", "statement": "A function's result has the tensor dimensions of its non-scalar children; each plane is computed from the children's corresponding planes only (scalars are used for every plane); the call reports failure exactly if all planes failed, and missing data exactly if all planes are without data.", "quantifier": "all functions, children, numbers of planes and failures", "why_tests_cant": "all combinations of failed and missing planes", "anchors": ["MEQ/src/Function.cc: getResult", "MEQ/src/Result.cc: allocateVellSets"]}
{"id": "C79", "title": "A failed vellset carries no data", "statement": "A vellset to which a failure is added has no value, shape, flags, weights or perturbed values.", "quantifier": "all vellsets and failures", "why_tests_cant": "all contents", "anchors": ["MEQ/src/VellSet.cc: addFail, clear", "MEQ/src/VellSet.h: hasDataWeights"]}
{"id": "C80", "title": "Value and perturbed values of a polynomial", "statement": "Evaluating a polynomial at a point gives its value there, and for every coefficient the values of the polynomial with that coefficient changed by its perturbation, up and down in turn.", "quantifier": "all polynomials in one and two variables, perturbations and points", "why_tests_cant": "all degrees, infinitely many points", "anchors": ["MEQ/src/Polc.cc: do_evaluate"]}
{"id": "C81", "title": "Solve domain of a polynomial", "statement": "Choosing a solve domain leaves the polynomial's values unchanged, and in terms of its normalised coordinates its validity domain becomes the solve domain.", "quantifier": "all polynomials, all proper solve and validity domains", "why_tests_cant": "all domains and points", "anchors": ["MEQ/src/Polc.cc: changeSolveDomain, transformCoeff"]}
{"id": "C82", "title": "Changing the number of coefficients", "statement": "A polynomial whose coefficients are given another shape keeps the coefficients of all degrees that both shapes have; new ones are 0.", "quantifier": "all polynomials and shapes", "why_tests_cant": "all shapes", "anchors": ["MEQ/src/Polc.cc: setCoeffShape"]}
{"id": "C83", "title": "Making a polynomial solvable does not change it", "statement": "A polynomial has the same values after it is made solvable.", "quantifier": "all polynomials and masks", "why_tests_cant": "all coefficients and points", "anchors": ["MEQ/src/Polc.cc: makeSolvable"]}
{"id": "C84", "title": "Domain numbers survive restarts", "statement": "When a parameter table is closed and opened again, any number of times, its domains are those that were added, under the same numbers; after a crash the domains written completely are still there, and domains added afterwards keep their numbers over the next restart.", "quantifier": "all sequences of additions and restarts, all crash points", "why_tests_cant": "crash at any byte", "anchors": ["MEQ/src/FastParmTable.cc: openDomainList, putCoeff, closeDomainFile"]}
{"id": "C85", "title": "Keys of the parameter table are unambiguous", "statement": "Different pairs of parameter and domain number have different keys, and the parameter's name and number can be read back from its key.", "quantifier": "all names and numbers", "why_tests_cant": "unbounded names", "anchors": ["MEQ/src/FastParmTable.cc: makeKey, decomposeKey"]}
{"id": "C86", "title": "Records of the parameter table are read as written", "statement": "The blocks of a funklet are read back from the database record as they were written; a record that has lost its end is rejected.", "quantifier": "all numbers and sizes of blocks, all truncation points", "why_tests_cant": "unbounded contents", "anchors": ["MEQ/src/FastParmTable.cc: getFunklet, putCoeff"]}
{"id": "C87", "title": "Access to parts of an array", "statement": "An identifier of as many indices as the array has axes gives the element at these indices, or an error if one is out of range; ranges, steps and wildcards select exactly the elements at the positions they name, in order, with one axis for each range or wildcard; axes that are not named are taken whole; impossible selections are rejected.", "quantifier": "all extents, all selections on any number of axes", "why_tests_cant": "all ranks and extents", "anchors": ["DMI/src/NumArray.cc: NumArray::get, parseHIID"]}
{"id": "C88", "title": "Arrays survive their blocks", "statement": "An array of numbers or strings is rebuilt from its block with the same element type, extents and contents; a block that has lost its end, or has something after it, is rejected; the extents of an accepted array are not negative.", "quantifier": "all element types, extents, contents and truncation points", "why_tests_cant": "unbounded contents", "anchors": ["DMI/src/NumArray.cc: toBlock, fromBlock"]}
{"id": "C89", "title": "Arrays are values", "statement": "Copies and received arrays have the contents of the original, and changing one array never changes another, although data are shared until they are changed.", "quantifier": "all histories of making, copying, sending, changing and clearing arrays", "why_tests_cant": "unbounded histories", "anchors": ["DMI/src/NumArray.cc: cloneOther, init, clear, toBlock, fromBlock, reference", "DMI/src/NumArray.h: makeWritable"]}
{"id": "C90", "title": "Messages between processes arrive intact, in order, once", "statement": "However the bytes of a connection are divided into reads, in whatever order the reader threads run, and wherever the connection is cut, the messages processed are the first of those sent, unaltered, in order, each once; everything that arrived completely can be processed, and when all is read everything was.", "quantifier": "all messages, divisions into reads, schedules of any number of reader threads, cut points", "why_tests_cant": "schedules and byte boundaries", "anchors": ["OCTOPUSSY/src/MTGatewayWP2.cc: readerThread, transmitMessage, readyForHeader", "OCTOPUSSY/src/MTGatewayWP.cc: processIncoming"]}
{"id": "C91", "title": "A reader resynchronises", "statement": "A reader that meets junk in the stream finds the next message after it.", "quantifier": "all junk without the signature, all schedules", "why_tests_cant": "unbounded contents", "anchors": ["OCTOPUSSY/src/MTGatewayWP2.cc: readerThread"]}
{"id": "C92", "title": "A message that cannot be unpacked does no harm to others", "statement": "A message that cannot be unpacked is dropped, and the others are processed as if it had not been sent.", "quantifier": "all messages, all ways of unpacking, all schedules", "why_tests_cant": "unbounded histories", "anchors": ["OCTOPUSSY/src/MTGatewayWP2.cc: readerThread", "OCTOPUSSY/src/MTGatewayWP.cc: processIncoming"]}
{"id": "C93", "title": "A gateway takes what is wanted at the other end", "statement": "A gateway whose table describes the process at the other end takes a message that was just sent if and only if a worker there gets it.", "quantifier": "all sets of workers, subscriptions, destinations and messages", "why_tests_cant": "all addresses and subscriptions", "anchors": ["OCTOPUSSY/src/MTGatewayWP.cc: willForward", "OCTOPUSSY/src/Dispatcher.cc: send"]}
{"id": "C94", "title": "The routing table follows the workers of the peer", "statement": "Whatever workers came, went and changed their subscriptions before and after a connection was made, once all news have arrived the routing table of the gateway says of each worker of the peer what is true of it; the table in the first message of a connection is read as it was sent.", "quantifier": "all histories of the peer, any moment of connection, all tables", "why_tests_cant": "unbounded histories and a race between snapshot and updates", "anchors": ["OCTOPUSSY/src/MTGatewayWP.cc: start, processInitMessage, processIncoming", "OCTOPUSSY/src/WPInterface.cc: do_start, do_stop, publishSubscriptions"]}
{"id": "C95", "title": "Exactly once over all processes", "statement": "Among processes that are all connected to each other, a message reaches each worker it is for, at whatever process, exactly once, and no other, in whatever order dispatchers and gateways work.", "quantifier": "all numbers of processes, all workers, all schedules", "why_tests_cant": "all schedules and network sizes", "anchors": ["OCTOPUSSY/src/Dispatcher.cc: send", "OCTOPUSSY/src/MTGatewayWP.cc: willForward, receive, processIncoming"]}
{"id": "C96", "title": "Scopes are respected", "statement": "A message published for the process or the host reaches the subscribers within it and no others, in whatever form it was published; a subscription with a scope takes messages from senders within it and no others.", "quantifier": "all addresses, subscriptions and messages", "why_tests_cant": "all addresses", "anchors": ["OCTOPUSSY/src/WPInterface.cc: publish", "OCTOPUSSY/src/WPInterface.h: publish, subscribe", "OCTOPUSSY/src/MTGatewayWP.cc: willForward"]}
{"id": "C97", "title": "Messages do not circulate", "statement": "In a network of processes, connected in whatever way and whatever the routing tables say, a message causes a bounded number of steps.", "quantifier": "all networks, tables and schedules", "why_tests_cant": "termination over all schedules", "anchors": ["OCTOPUSSY/src/MTGatewayWP.cc: willForward, receive, processIncoming", "OCTOPUSSY/src/Dispatcher.cc: send"]}
{"id": "C98", "title": "Composing results", "statement": "A composed result has the planes of its children, in order; in tensor mode a new first axis numbers the children and scalars are repeated; its return code tells whether all of its planes are failures or all are missing; it has as many planes as its dimensions say.", "quantifier": "all numbers of children, all their dimensions and planes", "why_tests_cant": "all dimensions and mixtures of tensors, scalars, failures and empty children", "anchors": ["MeqNodes/src/Composer.cc: getResult", "MEQ/src/Result.cc: setVellSet"]}
{"id": "C99", "title": "Selecting from a tensor", "statement": "A selector returns exactly the planes its indices name, in order, with the dimensions of the sliced axes; indices that do not exist are refused.", "quantifier": "all ranks, extents and selections", "why_tests_cant": "all ranks, extents and selections", "anchors": ["MeqNodes/src/Selector.cc: getResult"]}
{"id": "C100", "title": "Pasting into a tensor", "statement": "Pasting replaces exactly the planes the indices name; selecting them afterwards gives back what was pasted; what does not fit is refused.", "quantifier": "all ranks, extents and selections", "why_tests_cant": "all ranks, extents and selections", "anchors": ["MeqNodes/src/Paster.cc: getResult"]}
{"id": "C101", "title": "Products of matrices", "statement": "The product of any number of scalars and matrices is the product of their values, for the main value and with any parameter perturbed, and depends on the parameters its factors depend on; failures are in the planes they belong to.", "quantifier": "all numbers of factors, all sizes, all sets of parameters, all values in a commutative ring", "why_tests_cant": "all sizes and parameter sets", "anchors": ["MeqNodes/src/MatrixMultiply.cc: computeSum, scalarMultiply, getResult", "MEQ/src/Function.cc: findSpids"]}
{"id": "C102", "title": "Dimensions of results", "statement": "Exactly the valid indices of a tensor are accepted, each names another plane and every plane has one; a result that is sent to another process has the same dimensions there.", "quantifier": "all ranks, extents, indices and ways of building a result", "why_tests_cant": "all ranks and histories", "anchors": ["MEQ/src/Result.h: getOffsetChk", "MEQ/src/Result.cc: Result, allocateVellSets, setDims, validateContent, setVellSet"]}
{"id": "C103", "title": "Threaded channels: what is posted", "statement": "Every event whose posting to a threaded channel succeeded reaches the channel behind it, in the order of posting and once, before closing returns.", "quantifier": "all event sequences, all schedules of the two threads, all behaviours of the channel behind, spurious wake-ups included", "why_tests_cant": "all schedules", "anchors": ["AppAgent/AppAgent/src/MTQueueChannel.cc: runWorker, postEvent, close, flush"]}
{"id": "C104", "title": "Threaded channels: what is fetched", "statement": "The application gets the events of the channel behind in order and each at most once, and until it closes the channel every event fetched has been got or is queued.", "quantifier": "all event sequences, schedules and behaviours of the channel behind", "why_tests_cant": "all schedules", "anchors": ["AppAgent/AppAgent/src/MTQueueChannel.cc: runWorker, getEvent"]}
{"id": "C105", "title": "Threaded channels: bounded queues", "statement": "Neither queue of a threaded channel ever holds more events than the queue size, whichever side is faster.", "quantifier": "all schedules, queue sizes and behaviours", "why_tests_cant": "all schedules", "anchors": ["AppAgent/AppAgent/src/MTQueueChannel.cc: runWorker, postEvent, getEvent"]}
{"id": "C106", "title": "Threaded channels: errors reach the application", "statement": "Every exception of the channel behind is thrown to the application exactly once and in order, at its next call or at the latest when it closes the channel.", "quantifier": "all schedules and exceptions", "why_tests_cant": "all schedules", "anchors": ["AppAgent/AppAgent/src/MTQueueChannel.cc: runWorker, checkErrorQueue, close"]}
{"id": "C107", "title": "Threaded channels: calls end", "statement": "No call of a threaded channel blocks for ever: a call that waits goes on when what it waits for has happened or can no longer happen.", "quantifier": "all schedules, queue sizes and behaviours of the channel behind", "why_tests_cant": "deadlock freedom over all schedules", "anchors": ["AppAgent/AppAgent/src/MTQueueChannel.cc: runWorker, postEvent, getEvent, flush, close"]}
{"id": "C108", "title": "Visibility streams: baselines have their own places", "statement": "Tiles of different baselines never share a place in the tables of the stream node, a tile has a place exactly if both its antennas were announced in the header, and no stream of events makes the node read or write outside its tables and arrays.", "quantifier": "all antenna numbers, headers and sequences of events", "why_tests_cant": "arithmetic over all numbers; all event sequences", "anchors": ["VisCube/src/VisVocabulary.h: ifrNumber", "MeqServer/src/VisDataMux.cc: deliverHeader, deliverTile, fillCells"]}
{"id": "C109", "title": "Visibility streams: what the tree is run on", "statement": "A data set is cut into snippets of consecutive tiles with one sequence number. For each, in order, the start child is run, the tiles go to the nodes of their baselines with their rows, the child before is run, each sink whose baseline has a tile is run once, and the child after, all with the same new request.", "quantifier": "all data sets, node tables, child configurations, outcomes of the calls, and streams before", "why_tests_cant": "all data sets and interleavings of baselines", "anchors": ["MeqServer/src/VisDataMux.cc: deliverHeader, deliverTile, deliverFooter, startSnippet, endSnippet"]}
{"id": "C110", "title": "Visibility streams: each node gets its baseline", "statement": "A node attached for a baseline gets, over all data sets and streams, the header of each data set that has the baseline, exactly the tiles of the baseline in order, each with the request of its snippet, and the footer.", "quantifier": "all sets of nodes, data sets and streams", "why_tests_cant": "all histories of streams", "anchors": ["MeqServer/src/VisDataMux.cc: checkChildren, deliverHeader, deliverTile, deliverFooter"]}
{"id": "C111", "title": "Visibility streams: the output is well formed", "statement": "The output stream is a sequence of data sets, each a header, tiles and a footer, and holds every tile a sink returned, once and in order, after the header of its data set.", "quantifier": "all event sequences, sink results and output failures", "why_tests_cant": "all event sequences and failures", "anchors": ["MeqServer/src/VisDataMux.cc: endSnippet, postHeader, deliverFooter, deliverHeader"]}
{"id": "C112", "title": "Visibility streams: errors are reported", "statement": "If a stream ends with success every call made for it went well; and if the events are as they should be and all calls go well it ends with success and the output is closed.", "quantifier": "all event sequences and call outcomes", "why_tests_cant": "all event sequences and failures", "anchors": ["MeqServer/src/VisDataMux.cc: pollChildren, deliverTile, endSnippet"]}
{"id": "C113", "title": "Visibility streams: the limit on snippets", "statement": "With a limit of n snippets, the tree is run on the first n snippets of each data set and on no others, and the data set is ended properly.", "quantifier": "all data sets and limits", "why_tests_cant": "all data sets", "anchors": ["MeqServer/src/VisDataMux.cc: deliverTile, deliverFooter, pollChildren"]}
{"id": "C114", "title": "Spigots give the data and flags of the request", "statement": "A spigot's result has one plane per correlation asked for. Its values are those of the column in the rows of the request; a sample is flagged exactly if its flags or its row's flags have a bit of the mask or the row is missing.", "quantifier": "all tiles, rows, correlation lists, masks and flag bits", "why_tests_cant": "all tiles and settings", "anchors": ["MeqServer/src/Spigot.cc: deliverTile, readColumn, getRowFlags", "MeqServer/src/Spigot.h"]}
{"id": "C115", "title": "Spigots give each request its own tile", "statement": "What a request gets from a spigot was delivered for a matching request; in a series of snippets every request gets the tile of its snippet, and a request for which a tile was delivered gets one.", "quantifier": "all histories of deliveries and requests", "why_tests_cant": "all histories", "anchors": ["MeqServer/src/Spigot.cc: deliverTile, getResult"]}
{"id": "C116", "title": "Sinks write what they should and nothing else", "statement": "A sink writes the values and flags of each plane to the correlation the plane is mapped to, in the rows of the request, and leaves all else in the tile as it was; the tile is attached to the result exactly if something was written.", "quantifier": "all tiles, results, rows, mappings and masks", "why_tests_cant": "frame conditions over all tiles", "anchors": ["MeqServer/src/Sink.cc: getResult, mapOutputCorr, fillTileColumn"]}
{"id": "C117", "title": "From spigot to sink nothing is changed", "statement": "A tree that passes a spigot's result to a sink with the same correlations copies the input column to the output column and leaves the flags as they are.", "quantifier": "all tiles, rows and correlation lists", "why_tests_cant": "all tiles and settings", "anchors": ["MeqServer/src/Spigot.cc: deliverTile", "MeqServer/src/Sink.cc: getResult"]}
{"id": "C118", "title": "Tiles of a grid are where they should be", "statement": "For any tile sizes and any grid of cells, the solver's tiling has exactly the tiles needed to cover the grid, walking over the grid meets every cell once in order, and at every cell the tiling's current tile is the one the cell lies in.", "quantifier": "all grids of any number of axes (axes not defined included) and all tile sizes", "why_tests_cant": "sizes need not divide each other; counters of all axes interact", "anchors": ["MeqNodes/src/Solver.cc: Tiling::init, Tiling::advance", "MeqNodes/src/Solver.h: Tiling", "MEQ/src/Vells.h: DimCounter"]}
{"id": "C119", "title": "Solver tiles are made of whole tiles of every parameter", "statement": "The solver's tile sizes are on each axis the least common multiple of the parameters' tile sizes, or the whole axis, and each tile of each parameter is put in the solver tile it lies in.", "quantifier": "all grids and all sets of parameters with any tile sizes", "why_tests_cant": "number theory over all sizes, last tiles that are cut off", "anchors": ["MeqNodes/src/Solver.cc: populateSpidMap", "MeqNodes/src/Solver.h: DimVector"]}
{"id": "C120", "title": "Every tile of every parameter has an unknown of its own", "statement": "Each parameter has as many unknowns as tiles; no two tiles share an unknown; each subsolver's unknowns are numbered from zero without gaps; tiles share a subsolver exactly if they have the same solve group and lie in the same solver tile.", "quantifier": "all grids, all sets of parameters, tile sizes and solve groups", "why_tests_cant": "a bijection over all assignments", "anchors": ["MeqNodes/src/Solver.cc: populateSpidMap", "MeqNodes/src/Solver.h: DimVector::operator<"]}
{"id": "C121", "title": "Exactly the valid unflagged points make equations", "statement": "A child's result adds, for each point not flagged by the mask, of positive weight and with valid numbers, one equation (two if complex) for each solve group it has derivatives for, to the subsolver of that group and the point's solver tile, unless that has converged; nothing else is added.", "quantifier": "all results, flags, weights, masks, derivatives and solve groups", "why_tests_cant": "all data", "anchors": ["MeqNodes/src/Solver.cc: fillEquations, fillEqVectors"]}
{"id": "C122", "title": "Equations and updates are about the same tile", "statement": "Unknowns can be given to the tiles of the parameters such that each derivative is put on the unknown of the tile the point lies in, and the solution for an unknown is what that very tile is updated by.", "quantifier": "all grids, parameters, tilings, results and solutions", "why_tests_cant": "end to end over two nodes and three numberings", "anchors": ["MeqNodes/src/Solver.cc: fillEqVectors, fillRider", "MEQ/src/ComposedPolc.cc: do_update"]}
{"id": "C123", "title": "Updates reach the tile they were solved for", "statement": "The value a tile of a parameter is updated by is the solution for that tile's unknown, in the subsolver of its solve group and solver tile.", "quantifier": "all grids, parameters, tilings and solutions", "why_tests_cant": "an order of delivery against an order of application", "anchors": ["MeqNodes/src/Solver.cc: fillRider", "MEQ/src/ComposedPolc.cc: do_update", "MeqNodes/src/Parm.cc: processCommand"]}
{"id": "C124", "title": "Every solvable coefficient has its own entry in the spid map", "statement": "After discovery the spid map has exactly one entry for each solvable coefficient of each parameter, under its own number and with its node, solve group and tile sizes; the place of a coefficient's updates is its rank among its node's entries.", "quantifier": "all sets of parameters with any coefficient masks", "why_tests_cant": "all sizes and sets of nodes", "anchors": ["MeqNodes/src/Parm.cc: initSolvable, discoverSpids", "MEQ/src/Funklet.cc: makeSolvable", "MEQ/src/Node.cc: discoverSpids"]}
{"id": "C125", "title": "A solution is one discovery, at most max-iterations evaluations, and perhaps one update", "statement": "The requests the solver sends are a discovery of unknowns, then at most as many evaluations as iterations are allowed, then at most one final update; they are numbered from 0 and each evaluation announces the next number. The number of iterations reported is the number of evaluations, or one less if the last gave no equations.", "quantifier": "all settings, replies of the children, fits, interrupts and aborts", "why_tests_cant": "unbounded loop with outside events at any time", "anchors": ["MeqNodes/src/Solver.cc: getResult"]}
{"id": "C126", "title": "Every solution is sent to the parameters exactly once, in order", "statement": "With last_update the parameters are sent the incremental solutions of all iterations, each exactly once and in order; without it all but the last.", "quantifier": "all settings, replies, fits, interrupts", "why_tests_cant": "the history of updates over all runs", "anchors": ["MeqNodes/src/Solver.cc: getResult, fillRider"]}
{"id": "C127", "title": "The solver result says what the fits gave and whether enough of them converged", "statement": "The rows of incremental solutions are those of the fits; converged means that the quota of subsolvers has converged, for the first time after the last iteration.", "quantifier": "all settings, replies and fits", "why_tests_cant": "a property of whole runs", "anchors": ["MeqNodes/src/Solver.cc: getResult, Subsolver::solve", "MeqNodes/src/Solver.h"]}
{"id": "C128", "title": "An abort ends the solution with the code for an abort and sends no more updates", "statement": "If the abort flag is raised while the solver runs, it returns the code for an abort and no solver result; no update is sent any more.", "quantifier": "all times at which the flag is raised", "why_tests_cant": "all points in time", "anchors": ["MeqNodes/src/Solver.cc: getResult"]}
{"id": "C129", "title": "A solution all of whose children fail is a failure", "statement": "If all children fail in an iteration the solver returns a failure; a failure of the discovery is returned.", "quantifier": "all settings, replies and fits", "why_tests_cant": "all combinations of failures", "anchors": ["MeqNodes/src/Solver.cc: getResult"]}
{"id": "C130", "title": "Solved parameters are saved exactly when that was asked for", "statement": "If saving of funklets is asked for, the last request tells the parameters to save, and no other does; otherwise none does.", "quantifier": "all settings, replies, fits, interrupts", "why_tests_cant": "the history of commands over all runs", "anchors": ["MeqNodes/src/Solver.cc: getResult"]}
{"id": "C131", "title": "Solving with worker threads gives what one thread gives", "statement": "However the threads take turns, a multi-threaded solve leaves every subsolver with the solution and convergence, and gives the count, of the single-threaded loop; no two threads ever work on the same subsolver, and afterwards no worker touches any.", "quantifier": "any number of workers, any subsolvers, any fits, every schedule, any number of calls before, wake-ups without reason", "why_tests_cant": "every interleaving", "anchors": ["MeqNodes/src/Solver.cc: processSolversLoop, activateSubsolverWorkers, workerLoop"]}
{"id": "C132", "title": "A fit that throws in a worker thread is reported", "statement": "A multi-threaded solve ends normally exactly if no fit throws; otherwise it throws, with exceptions that fits threw, none reported more often than it was thrown.", "quantifier": "any number of workers, every schedule, any fits throwing", "why_tests_cant": "every interleaving", "anchors": ["MeqNodes/src/Solver.cc: processSolversLoop, activateSubsolverWorkers"]}
{"id": "C133", "title": "A multi-threaded solve always comes back", "statement": "While a solve runs some thread can go on by itself, and all of them together only for a bounded number of steps, so the solve comes back; workers told to stop all end.", "quantifier": "any number of workers, every schedule", "why_tests_cant": "absence of deadlock and lost wake-ups in every interleaving", "anchors": ["MeqNodes/src/Solver.cc: activateSubsolverWorkers, workerLoop, stopWorkerThreads"]}
{"id": "C134", "title": "A tiled parameter has one domain for each tile, and every cell lies in exactly one", "statement": "For tile sizes in time and frequency there are as many tile domains as tiles, in order; each goes from the start of its first cell to the end of its last; the centre of a cell is in the domain of its own tile and in no other.", "quantifier": "all grids of ordered cells, all tile sizes, also those that do not divide the grid", "why_tests_cant": "all grids and sizes", "anchors": ["MeqNodes/src/Parm.cc: GetTiledDomains"]}
{"id": "C135", "title": "A composed funklet has in each cell the value of a part that is for it, and the default elsewhere", "statement": "For each cell the value is that of a part whose domain has the centre of the cell; if there is none it is the default.", "quantifier": "all lists of parts, constant or not, overlapping or not, all grids", "why_tests_cant": "all parts and grids", "anchors": ["MEQ/src/ComposedPolc.cc: initFunklets, do_evaluate, fill_const_value", "MEQ/src/ComposedPolc.h: compareDomain", "MEQ/src/Polc.cc: do_evaluate"]}
{"id": "C136", "title": "A tiled parameter evaluates each cell with the coefficients of its tile", "statement": "A funklet prepared for tiles has one part for each tile in order of the tiles; the value of a cell is that of the part of its tile; a funklet that does not fit the tiles is replaced by its first part repeated.", "quantifier": "all grids, tile sizes, funklets", "why_tests_cant": "all grids and sizes", "anchors": ["MeqNodes/src/Parm.cc: initTiledFunklet, checkTiledFunklet, GetTiledDomains", "MEQ/src/ComposedPolc.cc"]}
{"id": "C137", "title": "A copy of a composed funklet has the same values", "statement": "A composed funklet that is copied, or made from the record of another, has the same value in every cell.", "quantifier": "all parts, defaults and grids", "why_tests_cant": "all parts and grids", "anchors": ["MEQ/src/ComposedPolc.cc: copy constructor, validateContent"]}
{"id": "C138", "title": "What a parameter starts from for a new domain", "statement": "For a request with a new domain a parameter uses its entry of the table (the first of several if solvable, all of them composed if not), else the default of the table, else what it had if the settings allow, else the initial funklet, else the default value.", "quantifier": "all settings, tables, histories of requests and commands, domains", "why_tests_cant": "all histories and tables", "anchors": ["MeqNodes/src/Parm.cc: findRelevantFunklet, initFunklet, getResult, clearFunklets", "MeqNodes/src/ParmDBInterface.cc: getFunkletFromDB"]}
{"id": "C139", "title": "A parameter that is not solvable has no memory", "statement": "A parameter that is neither solvable nor caches its funklet gives for any request what a newly made one would, whatever it was asked before, and never writes to the table.", "quantifier": "all settings, tables, histories", "why_tests_cant": "all histories", "anchors": ["MeqNodes/src/Parm.cc: getResult, processCommand"]}
{"id": "C140", "title": "Each update of a solution is added once, in order", "statement": "While a parameter is being solved for, its coefficients are those at the start plus all updates delivered, each once and in order, however requests for values and saving are interleaved and requests repeated.", "quantifier": "all sequences of requests and commands, all updates", "why_tests_cant": "all sequences", "anchors": ["MeqNodes/src/Parm.cc: processCommand, getResult, discoverSpids"]}
{"id": "C141", "title": "What is saved is what is read back", "statement": "After saving, any parameter of that name set up with the table starts from the saved coefficients for that domain; no other entry is changed.", "quantifier": "all tables, coefficients, domains, settings of the reader", "why_tests_cant": "all tables", "anchors": ["MeqNodes/src/ParmDBInterface.cc: save, getFunkletFromDB", "MEQ/src/FastParmTable.cc: putCoeff, getFunklets"]}
{"id": "C142", "title": "Only solutions that have converged are saved", "statement": "Unless the settings say otherwise, a solution is written to the table when asked for and said to have converged, and only then.", "quantifier": "all settings, tables, histories", "why_tests_cant": "all histories", "anchors": ["MeqNodes/src/Parm.cc: processCommand"]}
{"id": "C143", "title": "A solution is saved for the domain it was made for", "statement": "After a request for values to solve with for a domain, an update that is saved is written to a row for that domain and to no other.", "quantifier": "all settings, tables, histories, domains", "why_tests_cant": "all histories", "anchors": ["MeqNodes/src/Parm.cc: initFunklet, initSolvable, processCommand", "MEQ/src/Domain.cc: supersetOfProj"]}
{"id": "C144", "title": "Functions flag their output where an input is flagged", "statement": "The output of a function node has, at each point of the grid, exactly the flag bits that some child has there and that child's mask lets through; tensor functions give every element those of all elements of all children.", "quantifier": "all grids, flag arrays that broadcast to them, masks, numbers of children", "why_tests_cant": "all shapes and masks", "anchors": ["MEQ/src/Vells.cc: mergeFlags", "MEQ/src/Function.cc: evaluateFlags", "MEQ/src/TensorFunction.cc: evaluateTensorFlags"]}
{"id": "C145", "title": "Merging flags adds the chosen bits and loses none", "statement": "The flag merger returns the first child's result with, at each point of each element, its own bits and those within the mask of the elements of the other children that go with it, and fails if the dimensions do not go together. No bit an element has is lost.", "quantifier": "all results, masks, dimensions, numbers of children", "why_tests_cant": "all tensors", "anchors": ["MeqNodes/src/MergeFlags.cc: getResult, mergeChildFlags"]}
{"id": "C146", "title": "The zero flagger adds its bit where the condition holds", "statement": "Where the main value satisfies the comparison with 0 the flag bit is ORed into the flags, and nowhere else; other bits stay.", "quantifier": "all values, comparisons, flags before", "why_tests_cant": "all arrays", "anchors": ["MeqNodes/src/ZeroFlagger.cc: getResult", "MeqNodes/src/ZeroFlagger.h"]}
{"id": "C147", "title": "A reduced value is flagged exactly if all of its input is", "statement": "The output of a reduction, to a scalar or along axes, is flagged exactly if every point it comes from is flagged under the mask.", "quantifier": "all flag arrays, masks, slices", "why_tests_cant": "all flag words and masks", "anchors": ["MeqNodes/src/ReductionFunction.cc: isAllFlagged, evaluateFlags"]}
{"id": "C148", "title": "A reduction over children flags a point exactly if all children do", "statement": "With several children the output of a reduction is flagged at a point exactly if every child is flagged there under its mask.", "quantifier": "all numbers of children, flag arrays, masks", "why_tests_cant": "all numbers of children", "anchors": ["MeqNodes/src/ReductionFunction.cc: evaluateFlags", "MEQ/src/Vells.h: whereEq"]}
{"id": "C149", "title": "Replacing flagged values changes exactly the flagged points", "statement": "The output is the first child's value with the given value at exactly the points flagged, under its mask, in one of the other children; its flags are those of the first child.", "quantifier": "all values and flag arrays that broadcast to a grid, masks", "why_tests_cant": "all shapes", "anchors": ["MeqNodes/src/ReplaceFlaggedValues.cc: evaluateFlags, evaluate", "MEQ/src/Vells.h: replaceFlaggedValues"]}
{"id": "C150", "title": "Stripping drops derivatives and nothing else", "statement": "A stripper's output has no derivatives, and the same main values and flags as its input.", "quantifier": "all elements", "why_tests_cant": "all contents of an element", "anchors": ["MeqNodes/src/Stripper.cc: getResult", "MEQ/src/VellSet.cc: setValue"]}
{"id": "C151", "title": "A multiplexer returns its chosen child's answer", "statement": "With the default policies a request multiplexer returns the result of its designated child, failures included, and reports a failure or missing data exactly if that child does.", "quantifier": "all numbers of children, replies, poll orders", "why_tests_cant": "all replies", "anchors": ["MeqNodes/src/ReqMux.cc: pollChildren, getResult", "MEQ/src/Node.cc: execute"]}
{"id": "C152", "title": "Other children do not affect a multiplexer's answer", "statement": "With the default policies a multiplexer executes every enabled child, and nothing a child other than the designated one returns changes its answer.", "quantifier": "all replies of all other children", "why_tests_cant": "all replies", "anchors": ["MeqNodes/src/ReqMux.cc: pollChildren"]}
{"id": "C153", "title": "A sequencer asks its children in order, each under its own request id", "statement": "A request sequencer executes its children one after another in order, up to the first failure or missing data its policies do not ignore; child i gets the request id with i added to every component of the sequence mask, so no two children see the same id.", "quantifier": "all numbers of children, masks, ids, replies", "why_tests_cant": "all numbers of children and ids", "anchors": ["MeqNodes/src/ReqSeq.cc: pollChildren", "MEQ/src/RequestId.cc: incrSubId"]}
{"id": "C154", "title": "A sequencer returns its chosen child's answer and all dependencies", "statement": "With the default policies a sequencer reports a failure or missing data exactly if its designated child does, names every dependency of its children and itself, and returns the designated child's result.", "quantifier": "all requests, numbers of children, replies", "why_tests_cant": "all replies", "anchors": ["MeqNodes/src/ReqSeq.cc: pollChildren, getResult", "MEQ/src/Node.cc: execute"]}
{"id": "C155", "title": "A sequencer's cache is transparent", "statement": "If its children report what they depend on, a sequencer answers a request after any history as it would without a cache.", "quantifier": "all histories of requests", "why_tests_cant": "all histories", "anchors": ["MeqNodes/src/ReqSeq.cc: pollChildren", "MEQ/src/Node.cc: getCachedResult, cacheResult"]}
{"id": "C156", "title": "A disabled child is not executed", "statement": "A disabled child of a sequencer or multiplexer gets no request.", "quantifier": "all nodes and requests", "why_tests_cant": "all requests", "anchors": ["MeqNodes/src/ReqSeq.cc: pollChildren", "MEQ/src/NodeNursery.cc: syncPoll"]}
{"id": "C157", "title": "An equation's derivatives predict its change", "statement": "A conditional-equation node returns, per element, its second child less its first, and for every parameter either child depends on the difference quotient of the first less that of the second; if the children are affine in the parameters, value less the sum of derivatives times changes is the value after the changes.", "quantifier": "all tensors of children, sets of parameters, one or two sets of perturbed values, changes", "why_tests_cant": "all parameter lists and values", "anchors": ["MeqNodes/src/Condeq.cc: getResult, calcDerivative", "MEQ/src/Function.cc: findSpids"]}
{"id": "C158", "title": "An equation modulo something uses the nearest representative", "statement": "With a modulo the value is the one nearest to zero of those congruent to the difference, derivatives of children that are affine up to multiples of the modulo are exact if the steps change less than half of it, and complex values are refused.", "quantifier": "all moduli, values, steps", "why_tests_cant": "all values", "anchors": ["MeqNodes/src/Condeq.cc: getResult, calcDerivative", "MEQ/MEQ/Vells.h: remainder"]}
{"id": "C159", "title": "An equation's elements are of one type, with all flags and the weight", "statement": "Value and derivatives of an element are all complex or all real, real exactly if all values of both children are; the flags are the union of both children's; the weight is the third child's element.", "quantifier": "all elements, orders in which complex derivatives turn up", "why_tests_cant": "all orders of real and complex derivatives", "anchors": ["MeqNodes/src/Condeq.cc: getResult", "MEQ/src/VellSet.cc: setDataWeights"]}
{"id": "C160", "title": "An equation keeps the failures of its children", "statement": "An element without a value in a child gives an element without a value; an element that failed in a child does not become one that merely has no value.", "quantifier": "all results of children", "why_tests_cant": "all tensors of elements", "anchors": ["MeqNodes/src/Condeq.cc: getResult"]}
{"id": "C161", "title": "An equation without a child's result is missing", "statement": "The node's result is missing exactly if one of its first two children has no result; tensors of different dimensions are refused.", "quantifier": "all results of children", "why_tests_cant": "all combinations", "anchors": ["MeqNodes/src/Condeq.cc: getResult"]}
{"id": "C162", "title": "A function of tensors is evaluated for every perturbed parameter", "statement": "The result of a node that computes a function of whole tensors has the function's values for the main values and, for every parameter any element of any child depends on, for the arguments with that parameter perturbed; there is such a result exactly if the function succeeds on all of these and children agree on the perturbations; an element without a value makes the node fail.", "quantifier": "all functions, numbers and sizes of children, parameters", "why_tests_cant": "all functions and sizes", "anchors": ["MEQ/src/TensorFunction.cc: getResult, computeTensorResult"]}
{"id": "C163", "title": "Inverting a matrix gives the inverse", "statement": "The product of a 2 by 2 matrix (elements without a value being zero) and the result is the unit matrix, for main values and for every perturbed parameter, if the determinants are not zero; a scalar gives the reciprocal; a failed element gives a failure; other shapes are refused.", "quantifier": "all matrices over a field, parameters", "why_tests_cant": "all values", "anchors": ["MeqNodes/src/MatrixInvert22.cc: getResult"]}
{"id": "C164", "title": "Transposing exchanges the last two axes", "statement": "The result of transposing has the last two axes exchanged, for each matrix of a tensor, every element in its place and conjugated if asked for; transposing matrices twice gives the matrix back.", "quantifier": "all extents and numbers of axes, elements", "why_tests_cant": "all shapes", "anchors": ["MeqNodes/src/Transpose.cc: getResult, conjTranspose"]}
{"id": "C165", "title": "Stokes parameters give the coherency matrix", "statement": "The result is the Hermitian matrix with XX+YY, XX-YY, XY+YX and XY-YX the scaled I, Q, U and iV; null U and V give a diagonal one and null Q too a scalar; values that are not there count as zero.", "quantifier": "all values, scales, null and missing elements", "why_tests_cant": "all combinations of missing elements", "anchors": ["MeqNodes/src/Stokes.cc: getResult"]}
{"id": "C166", "title": "A rider's commands are performed by the nodes they are for", "statement": "For each of its groups in order, a node performs the commands for all, those of the first entry in the group's list that names it (or names nobody), and those for its index, in order, until one throws; it performs nothing else. An entry with a list of names or indices is for the listed nodes only.", "quantifier": "all riders, nodes, groups, commands and what they do", "why_tests_cant": "all riders and nodes", "anchors": ["MEQ/src/Node_commands.cc: processRequestRider, processCommands"]}
{"id": "C167", "title": "Commands put into a rider reach the nodes meant", "statement": "Commands put into a request's rider for all nodes of a group, for one node index or for listed nodes are performed by exactly those nodes; adding to a rider keeps what it has unless asked not to.", "quantifier": "all riders, flags, groups, nodes", "why_tests_cant": "all riders and nodes", "anchors": ["MEQ/src/Rider.cc: getCmdRec_All, getCmdRec_ByNodeIndex, getCmdRec_ByList, getGroupRec", "MEQ/src/Node_commands.cc: processRequestRider"]}
{"id": "C168", "title": "A node is executed by one thread at a time", "statement": "Whatever any number of threads do (executing, clearing or holding the cache, reading or changing the state, stopping at breakpoints), at most one executes a node at any time, at most one uses its cache and at most one its state.", "quantifier": "all schedules of any number of threads", "why_tests_cant": "all interleavings", "anchors": ["MEQ/src/Node.cc: execute, setExecState, clearCache, holdCache, setState, getSyncState", "MEQ/src/Node.h: exitExecute"]}
{"id": "C169", "title": "Threads at one node do not wait for ever", "statement": "While any thread is in a call to a node, some thread can go on; every schedule comes to an end with all threads out and everything free, unless threads go on starting calls or stopping.", "quantifier": "all schedules of any number of threads", "why_tests_cant": "all interleavings", "anchors": ["MEQ/src/Node.cc: execute, setExecState, clearCache, holdCache", "MEQ/src/Node.h: exitExecute"]}
{"id": "C170", "title": "The breakpoint flag of a node's status agrees with its breakpoints", "statement": "When no call is in progress, the status of a node says that there are breakpoints exactly if there are.", "quantifier": "all interleavings of setting a breakpoint and clearing the cache", "why_tests_cant": "all interleavings", "anchors": ["MEQ/src/Node.cc: setBreakpoint, clearCache, setControlStatus"]}
{"id": "C171", "title": "An execution returns a result or says why not", "statement": "Executing a node returns a result unless the code says aborted or wait; the code says updated exactly if the result did not come from the cache; whatever is thrown inside becomes a failed result; what is returned is what is cached; nothing is called after a cache hit, riders are processed for new requests only, children polled only by active nodes. No exception leaves the call.", "quantifier": "all requests, cached results, codes, results and exceptions of what is called, abort flags", "why_tests_cant": "all combinations of outcomes", "anchors": ["MEQ/src/Node.cc: execute, cacheResult", "MEQ/src/Node.h: exitExecute, exitAbort", "MEQ/src/NodeFace.h: execute"]}
{"id": "C172", "title": "A node's status says how the last execution ended", "statement": "After an execution the status of a node says ok, wait, empty, missing or failed as the code does, and whether the answer came from the cache.", "quantifier": "all executions and earlier statuses", "why_tests_cant": "all combinations of outcomes", "anchors": ["MEQ/src/Node.cc: execute", "MEQ/src/Node.h: exitAbort"]}
{"id": "C173", "title": "A node's failures are posted as errors", "statement": "Every failure that arises in a node is posted as an error; nothing else is.", "quantifier": "all executions", "why_tests_cant": "all combinations of outcomes", "anchors": ["MEQ/src/Node.cc: execute"]}
{"id": "C174", "title": "A lock object that says it is locked is locked", "statement": "Whatever threads do with lock objects (making, copying, assigning, releasing, relocking, trying), an object that says it is locked has its thread holding the mutex, no two objects of different threads say so of one mutex, and a mutex is held exactly as often as there are objects that hold it.", "quantifier": "all sequences of operations of any number of threads on any number of objects and mutexes", "why_tests_cant": "all interleavings", "anchors": ["TimBase/src/Thread/Mutex.h: Mutex::Lock"]}
{"id": "C175", "title": "A wait with a timeout lasts as long as the timeout", "statement": "If nobody wakes the thread, Condition::wait(timeout) ends when the timeout is over.", "quantifier": "all times of day and all timeouts that are not negative", "why_tests_cant": "depends on the microsecond at which it is called", "anchors": ["TimBase/src/Thread/Condition.h: Condition::wait", "OCTOPython/src/ProxyWPObject.cc: receive, await"]}
{"id": "C176", "title": "Read and write locks exclude each other", "statement": "While a thread has a write lock no other thread has a lock, whatever the schedule of locking, nesting, upgrading and downgrading; and a thread goes on as soon as nobody is in its way.", "quantifier": "all schedules of any number of threads, with spurious wake-ups", "why_tests_cant": "all interleavings", "anchors": ["TimBase/src/Thread/SmartLock.cc: rlock, wlock, runlock, wunlock, wlock_upgrade, rlock_downgrade"]}
{"id": "C177", "title": "Threads that wait for a read or write lock are woken", "statement": "A thread that is asleep though it could have the lock is not forgotten: some thread is awake in a call.", "quantifier": "all schedules of any number of threads", "why_tests_cant": "all interleavings", "anchors": ["TimBase/src/Thread/SmartLock.cc: rlock, wlock, runlock, wunlock, wlock_upgrade, rlock_downgrade"]}
{"id": "C178", "title": "The cells of a node's result fit all its children", "statement": "If the children's cells are accepted, the cells attached to the node's result have, along every axis on which a child's values vary, as many points as the child's own cells and the same domain; children that agree wherever they vary are accepted, children with other numbers of points or domains refused.", "quantifier": "all numbers of children, all cells and shapes, all sharing of cells objects", "why_tests_cant": "all combinations of cells, shapes and sharing", "anchors": ["MEQ/src/Node.cc: checkChildCells", "MEQ/src/Axis.h: mergeShape"]}
{"id": "C179", "title": "A node reports the solvable parameters of all its children", "statement": "The map of parameters a node returns has for every parameter what the first child that knows it says, and knows exactly those that some child knows.", "quantifier": "all children's maps", "why_tests_cant": "all combinations of maps", "anchors": ["MEQ/src/Node.cc: discoverSpids", "DMI/src/Record.cc: merge"]}
{"id": "C180", "title": "A caller that polls its children asynchronously is given each child's result exactly once", "statement": "Between startAsyncPoll and the -1 of awaitChildResult every enabled child's result for the present request is handed out exactly once, and nothing of an earlier poll; the caller never sleeps without anybody to wake it, and the poll can always be brought to its end.", "quantifier": "all numbers of children and workers, schedules and histories of polls, with and without aborts", "why_tests_cant": "the interleavings of a parent and several workers over repeated polls are unbounded, and the failing ones need an abort at the right moment", "anchors": ["MEQ/src/NodeNursery.cc: startAsyncPoll, mt_receiveAsyncChildResult, awaitChildResult, mt_abortPoll", "MEQ/src/MTPool.cc: getWorkOrder, clearQueue", "MeqNodes/src/Solver.cc: awaitChildResult loop"]}
{"id": "C181", "title": "When finishPoll returns, the step-children polled in the background have been executed", "statement": "finishPoll returns only when every enabled child of the background poll has been executed for the present request; it can always be brought to its return.", "quantifier": "all numbers of children and workers, schedules and histories of polls, with and without aborts", "why_tests_cant": "it depends on the schedule and on whether any earlier execution was aborted", "anchors": ["MEQ/src/NodeNursery.cc: backgroundPoll, mt_receiveBackgroundResult, mt_waitForEndOfPoll, finishPoll, abortPoll", "MEQ/src/Node.h: exitExecute, exitAbort"]}
{"id": "C182", "title": "A weighted sum is the sum of its children's values times their weights", "statement": "Whatever weights were given in whatever order of states, a WSum of n children yields the sum of w_i v_i with the weights last given: 1 if none, one for all if one, 0 for those left out.", "quantifier": "all numbers of children, sequences of weights and values", "why_tests_cant": "all vectors of weights, including zero and missing ones, of any length", "anchors": ["MeqNodes/src/WSum.cc: setStateImpl, evaluate", "MEQ/src/Function.cc: getResult", "MEQ/src/NodeNursery.h: enableChild"]}
{"id": "C183", "title": "A weighted mean is normalised by the sum of the weights, at every evaluation", "statement": "A WMean yields the weighted sum divided by the sum of the weights last given, at the first evaluation and at every later one, whatever was evaluated between.", "quantifier": "all numbers of children, sequences of weights and evaluations, values", "why_tests_cant": "normalisation changes the weights in place, so the history of evaluations matters", "anchors": ["MeqNodes/src/WMean.cc: NormWeights, evaluate", "MeqNodes/src/WSum.cc: evaluate"]}
{"id": "C184", "title": "The name of an axis leads back to it", "statement": "After any sequence of axis maps set, axes added and resets, looking up the name of an axis gives that axis, and the axes used for time and frequency are those with these names.", "quantifier": "all sequences of axis maps, additions and resets", "why_tests_cant": "the map is global and changed in place, so that what is left of earlier maps matters", "anchors": ["MEQ/src/Axis.cc: defineAxis, setAxisMap, setAxisRecords, addAxis, resetDefaultMap", "MEQ/src/Axis.h: axis, axisId"]}
{"id": "C185", "title": "A domain sent as a record is received as the same domain", "statement": "A domain made with the sender's names of axes and read by a receiver whose names are others has the same ranges on the same axes.", "quantifier": "all domains, and all histories of names of axes at both ends", "why_tests_cant": "the result depends on the histories of the global maps of two processes", "anchors": ["MEQ/src/Domain.cc: defineAxis, validateContent", "MEQ/src/Axis.cc: setAxisMap"]}
{"id": "C186", "title": "A domain record is accepted or refused, whatever is in it", "statement": "Reading any record as a domain ends in a domain or an exception: empty ranges and unknown names of axes are refused.", "quantifier": "all records and histories of names of axes", "why_tests_cant": "records come from anywhere and can name any axes", "anchors": ["MEQ/src/Domain.cc: validateContent", "MEQ/src/Axis.h: axis"]}
{"id": "C187", "title": "Of two processes that hear of each other's servers exactly one makes the connection", "statement": "If two processes are not connected and either has a server the other can use (a local one on the same host, a network one otherwise), then exactly one of them initiates a connection upon the other's advertisements, and to what was advertised.", "quantifier": "all pairs of processes, their ranks, hosts and servers", "why_tests_cant": "all combinations of two processes' identities and servers", "anchors": ["OCTOPUSSY/src/GWClientWP.cc: receive", "OCTOPUSSY/src/GWServerWP.cc: advertiseServer", "DMI/src/HIID.cc: operator <", "OCTOPUSSY/src/MsgAddress.h: peerid"]}
{"id": "C188", "title": "The connection manager never does anything undefined", "statement": "For any configuration, any answers of the sockets and any order of timers and messages, no connection is used after it was removed.", "quantifier": "all configurations and histories of events", "why_tests_cant": "depends on a connection failing for longer than half a minute while others are on the list", "anchors": ["OCTOPUSSY/src/GWClientWP.cc: timeout, activate, tryConnect, removeConnection"]}
{"id": "C189", "title": "A configured peer is tried again until it is connected, for ever", "statement": "A peer that was configured stays on the list of connections; one that is not connected is tried again every two seconds, an attempt is ended after ten, and one whose gateway ends is tried at once.", "quantifier": "all configurations, answers of sockets and histories of events", "why_tests_cant": "it is about every later moment of an unbounded history", "anchors": ["OCTOPUSSY/src/GWClientWP.cc: timeout, receive, tryConnect, addConnection"]}
{"id": "C190", "title": "Connections are listed once, own a socket only while being made, and are looked after", "statement": "At any time there is at most one connection per host and port; it holds a socket exactly while an attempt is under way; and then the reconnection timer is running.", "quantifier": "all configurations, answers of sockets and histories of events", "why_tests_cant": "an invariant of all histories", "anchors": ["OCTOPUSSY/src/GWClientWP.cc: timeout, activate, receive, addConnection, tryConnect"]}
{"id": "C191", "title": "A value that Python sends to the kernel and reads back is the same", "statement": "A Python value made of the types the interface knows (numbers, truth values, text, identifiers, sequences, arrays, records, messages, None), nested to any depth, is converted to a kernel value that converts back to an equal value, up to the kind of sequence.", "quantifier": "all values of the known types, nested without bound", "why_tests_cant": "nested values of mixed types are unbounded in number; failures depend on combinations of inner types", "anchors": ["OCTOPython/src/DataConv.cc: pyToDMI, pyFromDMI, pyToRecord, pyToArray, pyToMessage, getDMIType", "OCTOPython/src/dmi.py: dmi_typename", "MeqServer/src/py3compat.h", "DMI/src/Vec.cc: put, prepareForPut"]}
{"id": "C192", "title": "Fields of a record are converted independently of each other", "statement": "A record is always converted; each field that converts on its own arrives with the value it has on its own, whatever the other fields are; and every field arrives.", "quantifier": "all records and fields", "why_tests_cant": "one bad field may affect any other", "anchors": ["OCTOPython/src/DataConv.cc: pyToRecord, pyFromRecord", "OCTOPython/src/LazyObjRef.cc"]}
{"id": "C193", "title": "Attributes of a message are carried over exactly", "statement": "The identifier, priority, sender, addressee, state, hop count and payload of a message arrive exactly, whichever of the optional ones are set.", "quantifier": "all messages", "why_tests_cant": "all combinations of attributes and payloads", "anchors": ["OCTOPython/src/DataConv.cc: pyToMessage, pyFromMessage", "OCTOPython/src/dmi.py: message"]}
{"id": "C194", "title": "A kernel value that Python reads and gives back is identical", "statement": "A kernel value that Python can read, given back unchanged, is the same value with the same types.", "quantifier": "all kernel values, nested without bound", "why_tests_cant": "nested values of mixed types are unbounded in number", "anchors": ["OCTOPython/src/DataConv.cc: pyFromDMI, pyToDMI", "OCTOPython/src/dmi.py: dmi_typename"]}
{"id": "C195", "title": "Columns of a data tile have memory of their own", "statement": "Each defined column of a tile with rows has a part of the tile's memory, aligned to the size of its elements and within the block, that no other column of the tile meets; every element of every row can be read.", "quantifier": "all formats, numbers of rows and histories of operations", "why_tests_cant": "all formats and sizes; an error is a silent overlap", "anchors": ["VisCube/src/ColumnarTableTile.cc: computeOffsets, applyOffsets", "VisCube/src/VTile.cc: initArrays"]}
{"id": "C196", "title": "An assignment to an element of a tile changes that element only", "statement": "An assignment to an element of a tile shows in that element of that tile, and in no other element of that or any other tile, whichever tiles share memory.", "quantifier": "all histories of operations, tiles, columns, rows and values", "why_tests_cant": "sharing depends on the whole history of copies", "anchors": ["VisCube/src/VTile.h: makeWritable, array accessors", "VisCube/src/ColumnarTableTile.h: makeWritable, wcolumn", "MeqNodes/src/Sink.cc: fillTileColumn"]}
{"id": "C197", "title": "Copies of a tile are equal and then independent", "statement": "A copy of a tile has its format, rows, identifier and values; an operation on one tile does not show in another, even if they share memory; a new tile is zero.", "quantifier": "all histories and operations", "why_tests_cant": "sharing depends on the whole history of copies", "anchors": ["VisCube/src/ColumnarTableTile.cc: cloneOther, init, makeWritable", "VisCube/src/VTile.cc: VTile copy constructor, init"]}
{"id": "C198", "title": "A tile that is sent arrives as it was when it was sent", "statement": "A tile that is sent is received with the format, rows, identifier and values it had, whatever is done to it or other tiles meanwhile, and after those sent before.", "quantifier": "all histories before and between sending and receiving", "why_tests_cant": "operations between sending and receiving are unbounded", "anchors": ["VisCube/src/ColumnarTableTile.cc: toBlock, fromBlock", "VisCube/src/VTile.cc: fromBlock"]}
{"id": "C199", "title": "Rows copied from one tile to another arrive in the rows asked for", "statement": "Rows copied from a tile arrive in the rows of the other tile asked for, with all columns; its other rows are as before; an empty tile gets as many rows, the format and the identifier; rows that do not exist are refused.", "quantifier": "all tiles, formats, ranges of rows and histories", "why_tests_cant": "all formats and ranges", "anchors": ["VisCube/src/ColumnarTableTile.cc: copy, applyFormat, addRows", "VisCube/src/VTile.cc: copy"]}
{"id": "C200", "title": "Rows can be added to a tile without loss", "statement": "Adding rows keeps the values of the rows there were, and the new ones are zero; setting the identifier changes nothing else.", "quantifier": "all tiles, formats, numbers of rows and histories", "why_tests_cant": "all formats and sizes", "anchors": ["VisCube/src/ColumnarTableTile.cc: addRows, setTileId", "VisCube/src/VTile.cc: addRows"]}
{"id": "C201", "title": "A change of format keeps the columns both formats have", "statement": "A tile with rows can be given another format: columns that are the same in both keep their values, all others are zero.", "quantifier": "all tiles, pairs of formats and histories", "why_tests_cant": "all pairs of formats", "anchors": ["VisCube/src/ColumnarTableTile.cc: changeFormat", "VisCube/src/VTile.cc: changeFormat"]}
{"id": "C202", "title": "A saved configuration loads back", "statement": "A configuration that is saved to a file and loaded from it has the same settings; an integer that is set is what one gets.", "quantifier": "all names, values and numbers of settings", "why_tests_cant": "all texts; some characters are special to the format", "anchors": ["DMI/src/ConfigMgr.cc: save, load, merge, set, get"]}
{"id": "C203", "title": "The last source of a setting counts", "statement": "At the start of a program a setting has the value given last: by the general, host's and program's file of the configuration directory, the same files of the current directory, the file named on the command line, the command line.", "quantifier": "all files, lines, arguments and names", "why_tests_cant": "all combinations of files and lines", "anchors": ["OCTOPUSSY/src/OctopussyConfig.cc: init", "DMI/src/ConfigMgr.cc: merge, mergeLine, set, remove"]}
{"id": "C204", "title": "Options of the command line", "statement": "An option is found if and only if an argument other than the program's name starts with it; its value is the rest of the first such argument, or else the next argument, or else empty.", "quantifier": "all command lines and options", "why_tests_cant": "all command lines", "anchors": ["OCTOPUSSY/src/OctopussyConfig.cc: getOption"]}
{"id": "C205", "title": "A node's children are those named in its definition", "statement": "A definition of a node is accepted if and only if its name and index are free, its children are known to its class, no more than it takes, and all mandatory ones are there; child number k is then the node named for it by label, by number or by position.", "quantifier": "all classes, labels, definitions and forests", "why_tests_cant": "all combinations of labels, numbers and optional children", "anchors": ["MEQ/src/Node.cc: Node, childLabelToNumber", "MEQ/src/Node_init.cc: attachInitRecord", "MEQ/src/Forest.cc: create"]}
{"id": "C206", "title": "A batch of nodes that is created without errors is the tree that was defined", "statement": "If a batch of definitions is created without errors then there is exactly one node for each definition, at its index, linked to the existing nodes it names as children, stepchildren and parents, and active; definitions that agree with each other are created without errors, in any order of children and parents.", "quantifier": "all batches of definitions", "why_tests_cant": "all trees, cyclic references and orders of definition", "anchors": ["MeqServer/src/MeqServer.cc: createNodeBatch", "MEQ/src/Forest.cc: create, initAll", "MEQ/src/Node_init.cc: init, initChildren", "MEQ/src/NodeNursery.cc: init, setChild"]}
{"id": "C207", "title": "A node that cannot be set up does not keep others from being set up", "statement": "If in a batch of accepted definitions some refer to nodes that do not exist, or have settings that are refused, just their nodes are made inactive and counted as errors; all others are set up. A definition that is refused is counted and changes nothing.", "quantifier": "all batches of definitions", "why_tests_cant": "all combinations of good and bad definitions", "anchors": ["MEQ/src/Forest.cc: create, initAll, get", "MEQ/src/Node_init.cc: init", "MeqServer/src/MeqServer.cc: createNodeBatch"]}
{"id": "C208", "title": "A node depends on what it was told to depend on", "statement": "Whatever a node is told, by its class, its definition, records and from Python, its dependency mask has just the bits of the masks of its active dependencies, or is the mask that was given with or after them; records that are refused have no effect, and the state record shows the mask.", "quantifier": "all classes, maps of dependencies, definitions and histories of records, failures and calls", "why_tests_cant": "all histories, including failures in the middle of a change", "anchors": ["MEQ/src/SymdepMap.cc: getMask, setActive, set, load", "MEQ/src/Node.cc: setDependMask, setStateImpl, setState", "MEQ/src/Node_init.cc: attachInitRecord", "MeqServer/src/MeqPython.cc: set_node_active_symdeps"]}
{"id": "C209", "title": "Vectors behave as lists that share nothing", "statement": "Whatever is created, copied, assigned, put, resized, removed, sent and received, each vector has the type, size and elements that a list with the same history has: changes of one vector do not show in its copies, in messages made from it before or in vectors received from them, and what is received is what was sent, with missing objects missing.", "quantifier": "all types of elements, all environments and all sequences of operations on any number of vectors and messages", "why_tests_cant": "all histories of sharing of header blocks between vectors, copies and messages", "anchors": ["DMI/src/Vec.cc: init, makeWritable, resize, put, get, insert, remove, toBlock, fromBlock, resolveObject, cloneOther", "DMI/src/Vec.h"]}
{"id": "C210", "title": "A change of resolution is the one asked for", "statement": "Whatever settings a ModRes node was given and requests it passed on before, the next request's cells are changed as its last settings say: upsampling by k divides each cell into k equal ones, downsampling by k joins cells by k and the last ones by as many as are left, a number of cells divides the domain evenly, no setting leaves them as they are, and other axes are left alone.", "quantifier": "all histories of settings and requests, all factors, numbers and cells", "why_tests_cant": "all grids, factors and histories", "anchors": ["MeqNodes/src/ModRes.cc: setStateImpl, pollChildren", "MeqNodes/src/ModRes.h"]}
{"id": "C211", "title": "Integrated values are means over the new cells", "statement": "When a Resampler node integrates values to other cells of the same domain, each new value is the mean of the old values, weighted with the parts of the old cells that lie in the new cell, whatever the sizes of the cells.", "quantifier": "all divisions of the two axes into old and new cells, all values, constant along an axis or not", "why_tests_cant": "all grids of any number and sizes of cells", "anchors": ["MeqNodes/src/Resampler.cc: ResampleMachine::bin_search, Integrator::setup, Integrator::insert, Integrator::do_resample, Resampler::getResult"]}
{"id": "C212", "title": "Flagged values do not count in integrated values", "statement": "When a Resampler node integrates flagged values, only values without flags in the mask count for the mean; the new value is flagged if and only if more than the given part of the old cells that overlap with it are flagged, with the flag bits given or, if none are, with those of the flagged values in the mask.", "quantifier": "all divisions into cells, values, flags, masks, flag bits and densities", "why_tests_cant": "all grids, flags and policies", "anchors": ["MeqNodes/src/Resampler.cc: Integrator::do_resample, Integrator::apply"]}
{"id": "C213", "title": "The PSVTensor node sums the visibilities of all sources", "statement": "Given positions, brightnesses, uvw coordinates, shapes and pairs of Jones terms for any number of sources, the main value of a PSVTensor node's result is the sum over the sources of the phase, smearing and shape terms times the brightness between all Jones terms. The result has all parameters that some child depends on, in order, with the children's perturbations; children that perturb a parameter by different amounts are refused.", "quantifier": "all numbers of sources and of Jones terms, scalar or matrix, all values, all sets of parameters on which elements of children depend", "why_tests_cant": "all numbers and dimensions of children and all dependences", "anchors": ["MEQ/src/TensorFunctionPert.cc: TensorFunctionPert::computeTensorResult", "MEQ/src/TensorFunctionPert.h: getChildValue, IPTR", "MeqNodes/src/PSVTensor.cc: getResultDims, evaluateTensors, IntermediateMatrix"]}
{"id": "C214", "title": "Perturbed values of the PSVTensor node", "statement": "For each parameter, the perturbed value of a PSVTensor node's result is the same sum with each child's perturbed value for that parameter, where the child depends on it.", "quantifier": "all children and all sets of parameters they depend on, in any order of ids", "why_tests_cant": "all orders of parameters and all sets of elements that depend on them", "anchors": ["MeqNodes/src/PSVTensor.cc: evaluateTensors, fillFromChild, computeShapeTerm", "MEQ/src/TensorFunctionPert.h: getChildValue"]}
{"id": "C215", "title": "The shapes of sources can be left out", "statement": "A PSVTensor node works with its three mandatory children (positions, brightnesses, uvw coordinates) alone: sources are then points.", "quantifier": "all values of the three children", "why_tests_cant": "all children; the failure is in an unsigned difference of numbers of children", "anchors": ["MeqNodes/src/PSVTensor.cc: PSVTensor::PSVTensor, getResultDims"]}
{"id": "C216", "title": "Messages between the processes of a parallel server", "statement": "A header and an object sent to another process arrive as they were: the send buffer always holds the message, nothing is written past it, and the receiver gets the same header and the same blocks. A message that was cut short is refused. Whatever bytes arrive, nothing outside the message is read.", "quantifier": "all headers, all objects (numbers and sizes of blocks), all sizes of the buffer, all cuts; all sequences of bytes", "why_tests_cant": "all objects, all sizes and all cuts", "anchors": ["MeqMPI/src/MeqMPI.cc: ensureBuffer, marinateMessage, sendMessage, encodeMessage, decodeMessage"]}
{"id": "C217", "title": "Calls of remote nodes return what the remote node did", "statement": "When threads of several processes call nodes of other processes, every call is done at most once, for the caller that made it; it returns at most once; and it returns the result code and object that the remote node produced for this very call (a fail if it threw or gave no result). No reply is ever written to the stack of a thread that is not waiting for it.", "quantifier": "all numbers of processes, all sequences of calls, all schedules of communicator, worker and calling threads, all outcomes of nodes including exceptions", "why_tests_cant": "all interleavings of threads and messages", "anchors": ["MeqMPI/src/MeqMPI.cc: runCommThread, postCommand, postReply, procReply, ReplyEndpoint", "MeqMPI/src/MeqMPI_commands.cc: procNodeExecute, MpiExecWorkOrder, procNodeGetState", "MeqMPI/src/MPIProxy.cc: execute, getSyncState"]}
{"id": "C218", "title": "Calls of remote nodes come back, and errors are reported", "statement": "Every call of a remote node that expects a reply is answered in the end, whatever the remote side does; every error at the remote side is reported once to the user of the main server.", "quantifier": "all histories of calls, all schedules, all outcomes", "why_tests_cant": "all interleavings; absence of calls that wait for ever", "anchors": ["MeqMPI/src/MeqMPI.cc: runCommThread, postError, postEvent", "MeqMPI/src/MeqMPI_commands.cc: procEvent, procNodeExecute", "MeqMPI/src/MPIProxy.cc: processCommand"]}
{"id": "C219", "title": "Settings of remote nodes", "statement": "Changes of the state of a remote node arrive in the order in which a process made them, each once; calls to the node that the process makes later see them. The other commands without a reply (clear the cache, breakpoints, publishing, state dependencies) arrive as well.", "quantifier": "all histories of calls from all processes, all schedules", "why_tests_cant": "all interleavings of messages of several processes", "anchors": ["MeqMPI/src/MPIProxy.cc: setState, clearCache, setBreakpoint, setPublishingLevel", "MeqMPI/src/MeqMPI_commands.cc: procNodeSetState", "MeqMPI/src/MeqMPI.cc: runCommThread"]}
{"id": "C220", "title": "Commands to the server are answered", "statement": "Every command sent to the server is executed at most once, with the arguments that were given, and gets exactly one reply, with its name and the number the client gave it (none, if it asked for silence and nothing went wrong). Commands that need not wait are answered at once, also during an execution; the others are executed and answered in the order in which they came. Unknown commands get an error; the queue never gets stuck. No command is left without its reply, also when the server is halted.", "quantifier": "all histories of events from clients, all outcomes of commands, all schedules of the main and the execution thread", "why_tests_cant": "all interleavings of two threads and all sequences of commands", "anchors": ["MeqServer/src/MeqServer.cc: executeCommand, execCommandEntry, runExecutionThread, run, halt"]}
{"id": "C221", "title": "No event ends the server", "statement": "Whatever events clients send, the server does not crash and does not end because of an exception; malformed commands get an error.", "quantifier": "all histories of events, including malformed ones", "why_tests_cant": "all contents of events", "anchors": ["MeqServer/src/MeqServer.cc: executeCommand, run", "MeqServer/src/meqserver_main.cc: main"]}
{"id": "C222", "title": "The state that clients are told", "statement": "At every moment the state that clients were told last, by a notification or with a reply, is the state of the server; and the state is executing exactly while a node is executed, constructing while a batch of nodes is made, updating while the forest is cleared.", "quantifier": "all histories of events, outcomes and schedules", "why_tests_cant": "all interleavings of two threads", "anchors": ["MeqServer/src/MeqServer.cc: setState, execCommandEntry, nodeExecute, createNodeBatch, clearForest"]}
{"id": "C223", "title": "Requests to abort an execution", "statement": "When the server has answered that it is aborting the execution, the request stays raised until that execution ends. Requests made before an execution do not abort it.", "quantifier": "all histories of events and all schedules", "why_tests_cant": "all interleavings of two threads", "anchors": ["MeqServer/src/MeqServer.cc: executeAbort, nodeExecute, execCommandEntry"]}
{"id": "C224", "title": "The list of nodes a client holds", "statement": "A client that sends the number of its list of nodes and is told that this is still good has the list of the nodes there are. One that has no list or another number gets the list and its number.", "quantifier": "all sequences of changes to the forest and requests for the list, all schedules", "why_tests_cant": "all interleavings of changes and requests", "anchors": ["MeqServer/src/MeqServer.cc: getNodeList", "MeqServer/src/MeqServer.h: incrementForestSerial"]}
{"id": "C225", "title": "Rows of a measurement set in the tiles that are read", "statement": "A set with rows that match the selection can be read. Each such row is in exactly one tile, that of its baseline, at its time, with the selected channels of its data and its number in the table; a tile has no other rows. Each tile has its own baseline and number, the times that all tiles with its number have, and at least one row. Timeslots are numbered in order of time.", "quantifier": "all tables, selections, ranges of channels and sizes of tiles", "why_tests_cant": "all tables, in particular with missing, repeated and unordered rows", "anchors": ["AppAgent/AppUtils/src/MSInputChannel.cc: openMS, refillStream", "VisCube/src/VisVocabulary.h: ifrNumber"]}
{"id": "C226", "title": "Sizes of tiles", "statement": "The timeslots of the selected rows are cut into tiles that are not empty and have at most the given number of timeslots; with one segment per tile, the steps of time in a tile differ by at most 0.1 from the first; every tile but the last is as large as these limits allow. No memory outside of the list of sizes is written.", "quantifier": "all tables, limits for sizes and segments", "why_tests_cant": "all sequences of times", "anchors": ["AppAgent/AppUtils/src/MSInputChannel.cc: openMS"]}
{"id": "C227", "title": "Range of selected channels", "statement": "Whatever first and last channel are given, the range that is read lies within the channels; existing channels are taken as given, in either order; negative numbers for the last one count from the end.", "quantifier": "all numbers of channels and limits", "why_tests_cant": "all integers", "anchors": ["AppAgent/AppUtils/src/MSInputChannel.cc: fillHeader"]}
{"id": "C228", "title": "Data written back to a measurement set", "statement": "Data of tiles goes to the selected channels of the rows they came from; other channels, other columns and other rows do not change. Writing tiles as they were read changes nothing, also when the channels are reversed or some are skipped.", "quantifier": "all tables, tiles and ranges of channels", "why_tests_cant": "all tables and tiles", "anchors": ["AppAgent/AppUtils/src/MSOutputChannel.cc: putColumn, doPutTile, doPutHeader", "AppAgent/AppUtils/src/MSInputChannel.cc: refillStream"]}
{"id": "C229", "title": "Flags read from and written to a measurement set", "statement": "A cell is flagged in a tile exactly if a selected bit of BITFLAG is set or FLAG is set and counts. Writing keeps the bits of BITFLAG that the mask keeps and adds the bit for what is flagged in the tile; FLAG is then set exactly where a bit that counts is; columns that are not to be written stay. If FLAG is written, a cell flagged in the tile is flagged in the table.", "quantifier": "all masks, bits and flags", "why_tests_cant": "all combinations of masks and options", "anchors": ["AppAgent/AppUtils/src/MSInputChannel.cc: refillStream", "AppAgent/AppUtils/src/MSOutputChannel.cc: doPutTile"]}
{"id": "C230", "title": "Measurement sets written in the order of rows", "statement": "The output channel that keeps tiles and writes their rows in the order of the table leaves the same table as the one that writes tile by tile: each row gets the data of its tile in the selected channels, and nothing else changes.", "quantifier": "all tables, tiles and ranges of channels", "why_tests_cant": "all orders of rows and tiles", "anchors": ["AppAgent/AppUtils/src/MSSeqOutputChannel.cc: doPutHeader, doPutTile, flushOutputTiles, doPutFooter", "AppAgent/AppUtils/src/MSOutputChannel.cc: doPutTile"]}
{"id": "C231", "title": "Messages are delivered to channels once", "statement": "With several channels on one queue, each message that some channel maps is delivered exactly once, to the first channel that maps it, as the event given by that map, with its payload and sender, when that channel asks with a mask that the event matches; messages of the same priority in the order of their arrival. Others who ask meanwhile are told that it is not their turn, and take nothing. Messages that no channel maps are discarded.", "quantifier": "all sets of channels, arrivals of messages and histories of requests", "why_tests_cant": "all histories", "anchors": ["AppAgent/AppAgent/src/OctoEventMux.cc: checkQueue, getEvent, addChannel"]}
{"id": "C232", "title": "To ask for an event does not take it", "statement": "To ask whether there is an event tells whether a request for it would succeed, and takes nothing: a request that follows gets the event.", "quantifier": "all histories, channels and masks", "why_tests_cant": "all histories", "anchors": ["AppAgent/AppAgent/src/OctoEventMux.cc: hasEvent, checkQueue"]}
{"id": "C233", "title": "Ids of events that are posted and received", "statement": "An event is posted with the id its channel maps it to, else with the prefix of its category, else with the common prefix; without any of these, or mapped to nothing, it is not posted, and the channel says so when asked. A channel that receives with the same prefix gets the id that was posted.", "quantifier": "all maps, prefixes, categories and ids", "why_tests_cant": "all maps and ids", "anchors": ["AppAgent/AppAgent/src/OctoChannel.cc: postEvent, mapPostEvent, isEventBound, mapReceiveEvent"]}
{"id": "C234", "title": "Events from files", "statement": "Events of a file are given in the order of the file, each once, whatever masks are asked with, and only to requests with a mask that they match.", "quantifier": "all files, and sequences of requests with any masks", "why_tests_cant": "all sequences", "anchors": ["AppAgent/AppAgent/src/FileChannel.cc: getEvent, hasEvent, putOnStream"]}
{"id": "C235", "title": "Histories keep the latest items", "statement": "A node that collects a history gives the items found in the results of its child since the history was last cleared, in their order: all of them if there is no limit, else the last ones up to the limit. Results without the item leave it as it was.", "quantifier": "all histories of results, commands and changes of the limit", "why_tests_cant": "all histories", "anchors": ["MeqNodes/src/HistoryCollect.cc: getResult, processCommand, setStateImpl"]}
{"id": "C236", "title": "Collected data has one entry for each child", "statement": "A node that collects data gives a list with one entry for each child in their order: the plot record or value of the child if there is just one, else a list of all of them, which is empty if there are none.", "quantifier": "all results of children", "why_tests_cant": "all results", "anchors": ["MeqNodes/src/DataCollect.cc: getResult"]}
{"id": "C237", "title": "Joined data keeps labels with their values", "statement": "A node that joins plot records gives the values of all children one after the other. If any child has labels there is one label for each value, its own or an empty one. Attributes are those of the node, else of the first child that has some. It fails if and only if a child has labels but not one for each value.", "quantifier": "all plot records of children", "why_tests_cant": "all records", "anchors": ["MeqNodes/src/DataConcat.cc: getResult", "MeqNodes/src/DataCollect.cc: getResult"]}
{"id": "C238", "title": "A flag shared by sources of events", "statement": "A flag is raised if and only if some source has raised it and not cleared it since, and one can wait for a single source: sources do not disturb each other. There are at most 32 sources; calls for other sources are refused and change nothing.", "quantifier": "all histories of calls", "why_tests_cant": "all histories and sources", "anchors": ["AppAgent/AppAgent/src/EventFlag.cc: addSource, raise, clear, wait", "AppAgent/AppAgent/src/EventFlag.h: isRaised"]}
{"id": "C239", "title": "Splitting of strings", "statement": "The pieces of a string that is split at a character give the string when they are joined again, the character is in none of them, and pieces that were joined are found again, empty ones and the one at the end too.", "quantifier": "all strings, separators and lists of pieces", "why_tests_cant": "all strings", "anchors": ["TimBase/src/StringUtil.cc: StringUtil::split"]}
{"id": "C240", "title": "Nodes for grids give the centres of cells", "statement": "The node for an axis (time, frequency or any other) has at each cell of the request the centre of that cell along the axis, and zero if the axis has no cells. Its shape fits the cells.", "quantifier": "all cells, axes and points", "why_tests_cant": "all grids", "anchors": ["MeqNodes/src/Grid.cc: getResult", "MeqNodes/src/Freq.cc: getResult", "MeqNodes/src/TimeNode.cc: getResult"]}
{"id": "C241", "title": "Locations of extremes", "statement": "The node for the location of the largest (smallest) value gives, for each axis with cells, the centre of a cell where its child has the largest (smallest) of all its values.", "quantifier": "all cells and values that fit them", "why_tests_cant": "all values", "anchors": ["MeqNodes/src/MaxLocation.cc: evaluateTensors, getResultDims", "MeqNodes/src/MinLocation.cc: evaluateTensors, getResultDims"]}
{"id": "C242", "title": "All sources of a patch are in its image", "statement": "The node that makes an image of a patch of sources gives a grid on which each source is inside, at each frequency, and puts it in the pixel it is in; it never writes outside of the image.", "quantifier": "all sources, frequencies and parameters of the grid", "why_tests_cant": "all positions of sources", "anchors": ["MeqNodes/src/PatchComposer.cc: getResult"]}
{"id": "C243", "title": "Images of patches show their sources", "statement": "In each channel the image of a patch has in each pixel the flux of the sources in that pixel, and zero elsewhere: the sum over the image is the sum over the sources.", "quantifier": "all sources, frequencies and parameters of the grid", "why_tests_cant": "all positions and fluxes", "anchors": ["MeqNodes/src/PatchComposer.cc: getResult"]}
{"id": "C244", "title": "Logarithmic axes of polynomials", "statement": "A polynomial with logarithmic axes takes the logarithm to base 10 of each coordinate relative to the scale of the axis, if that is of a positive number for all coordinates of the grid; else it leaves the grid as it is.", "quantifier": "all scales and grids", "why_tests_cant": "all grids", "anchors": ["MEQ/src/PolcLog.cc: axis_function"]}
{"id": "C245", "title": "Domains of solving for logarithmic polynomials", "statement": "When the domain of solving of a polynomial with logarithmic axes is changed, its variable goes from one end of that domain to the other when the coordinate goes from one end of the domain of validity to the other, on both axes.", "quantifier": "all scales, domains of solving and domains of validity", "why_tests_cant": "all domains", "anchors": ["MEQ/src/PolcLog.cc: changeSolveDomain, axis_function", "MEQ/src/Polc.cc: changeSolveDomain, do_evaluate"]}

# Source of /verif/properties.jsonl (run: python3 tools/gen.py).
# P(id, title, statement, quantifier, why_tests_cant, anchors, plan)
PROPS = []
def P(id, title, statement, quantifier, why, anchors, plan):
    PROPS.append(dict(id=id, title=title, statement=statement, quantifier=quantifier,
                      why_tests_cant=why, anchors=anchors, plan=plan))

# ---------------------------------------------------------------- DMI: identifiers
P("C01", "HIID wildcard matching decides pattern overlap",
  "HIID::matches(p,q) returns true exactly when there is a wildcard-free identifier that both p and q denote, where '?' stands for any one component and '*' for any (possibly empty) remainder. In particular matching is symmetric, and a concrete id is matched by a pattern iff it belongs to the pattern's language.",
  "all pairs of HIIDs of any length, with '?' and '*' in any position",
  "the identifier space is infinite and the claim quantifies over an existential witness identifier for every pair of patterns",
  ["DMI/src/HIID.cc: HIID::matches", "DMI/src/AtomicID.h: AtomicID::matches"],
  "Model ids as lists of integers with the reserved negative codes; prove by simultaneous induction that the loop equals non-emptiness of the intersection of two inductively defined languages.")
P("C02", "HIID subsetOf decides pattern inclusion",
  "p.subsetOf(q) returns true exactly when every wildcard-free identifier denoted by p is also denoted by q; hence subsetOf is reflexive and transitive, and implies matches.",
  "all pairs (triples for transitivity) of HIIDs of any length",
  "language inclusion ranges over infinitely many identifiers",
  ["DMI/src/HIID.cc: HIID::subsetOf"],
  "Same model as C01; the converse direction builds a separating identifier from the mismatch position.")
P("C03", "HIID binary form round-trips",
  "Unpacking the packed form of an identifier yields the same identifier, the packed form has exactly 4 bytes per component, and unpacking succeeds exactly on blocks whose size is a multiple of 4.",
  "all identifiers of any length and all byte blocks",
  "unbounded identifier length and every 32-bit component value",
  ["DMI/src/HIID.cc: HIID::pack, HIID::unpack, HIID::packSize", "DMI/src/HIID.h"],
  "Model components as 32-bit words in byte lists; prove decode-after-encode by induction over the id.")
P("C04", "HIID ordering is a strict total order",
  "The ordering used to key records and maps is irreflexive, transitive and trichotomous with respect to identifier equality.",
  "all pairs and triples of HIIDs of any length",
  "a total-order law ranges over all triples of unbounded sequences",
  ["DMI/src/HIID.cc: HIID::operator <, HIID::operator =="],
  "Lexicographic comparison function over lists of integers; induction on the lists.")
P("C05", "Index popping keeps the rest of an identifier intact",
  "popLeadIndex (popTrailIndex) removes exactly the first (last) component and returns its value iff that component is a numeric index; otherwise the identifier is unchanged and 0 is returned.",
  "all identifiers of any length",
  "unbounded length, every component value",
  ["DMI/src/HIID.cc: HIID::popLeadIndex, HIID::popTrailIndex", "DMI/src/AtomicID.h: AtomicID::index"],
  "Direct functional model; case analysis.")
P("C06", "Splitting at a slash is a decomposition",
  "splitAtSlash returns the part before the first '/' and leaves the part after it, the returned part contains no slash, and joining the two with one '/' gives back the original; if there is no slash the whole id is returned and the remainder is empty.",
  "all identifiers of any length",
  "unbounded length, arbitrary slash positions",
  ["DMI/src/HIID.cc: HIID::splitAtSlash"],
  "Model and induction over the identifier.")
P("C07", "The atomic-id registry maps names and numbers consistently",
  "After any sequence of registrations a name registered for an id is found again, and looking up an id and then its name returns the same id provided no name (compared without regard to case) was registered for two ids.",
  "all sequences of registrations, including re-registrations",
  "arbitrary registration histories (dynamic registration by modules loaded in any order)",
  ["DMI/src/Registry.h: UniRegistry::add, BiRegistry::add, BiRegistry::rfind", "DMI/src/AtomicID.cc"],
  "Finite-map model; invariant by induction over the history, counterexample for overwrite.")
# ---------------------------------------------------------------- DMI: counted refs
P("C08", "Counted references neither leak nor double-free",
  "In every sequence of reference operations an object owned by references is alive as long as at least one reference points to it, and is destroyed exactly once, at the moment its last reference goes away; objects attached as external are never destroyed; the reported reference count equals the number of attached references.",
  "all interleavings of attach, copy, transfer, privatize, detach over any number of references and objects",
  "object lifetime is a property of all finite operation histories",
  ["DMI/src/CountedRefBase.cc: attach, copy, xfer, privatize, detach", "DMI/src/CountedRefBase.h", "DMI/src/CountedRefTarget.h"],
  "Heap model with reference slots and targets; invariant (count = number of slots pointing at it; alive iff owned count>0) preserved by each operation, by induction over the op list.")
P("C09", "Copy-on-write isolation",
  "A write through one reference is never visible through another reference, unless the writing reference was explicitly attached/copied as SHARED.",
  "all histories of reference operations and writes",
  "isolation is a non-interference property over all histories",
  ["DMI/src/CountedRefBase.cc: privatize, getTargetWr", "DMI/src/CountedRefBase.h: isDirectlyWritable"],
  "On the C08 heap model with object contents: a write by slot r changes the value read through slot s only if s = r or r is shared.")
P("C10", "Locked references are immovable",
  "A locked reference can be neither detached nor transferred nor re-attached: such a request fails and leaves all references, counts and objects unchanged.",
  "all reachable states and operations",
  "must hold in every reachable state",
  ["DMI/src/CountedRefBase.cc: detach, xfer, attach"],
  "On the C08 model: error outcome and state equality.")
# ---------------------------------------------------------------- DMI: containers
P("C11", "A block set reports its true total size and is FIFO",
  "The reported size of a block set equals the number of blocks it holds after any sequence of push/pop/move/copy/clear/flush operations, blocks come out in the order in which they were put in, and reading through the cursor in chunks of any sizes hands out exactly the concatenated contents.",
  "all operation histories",
  "accounting invariants over all histories",
  ["DMI/src/BlockSet.cc: push, pop, pushCopy, popMove, flushToCursor", "DMI/src/BlockSet.h"],
  "Queue model with cached size; invariant for all operations except flushToCursor, refutation by witness for it.")
P("C12", "A record behaves as a finite map",
  "After any sequence of field insertions, replacements and removals each field reads back the last value stored under that identifier; inserting an existing field without REPLACE and touching a protected field while honouring protection fail and change nothing.",
  "all histories over all identifiers",
  "history-dependent, unbounded number of fields",
  ["DMI/src/Record.cc: addField, removeField, protectField, get, merge"],
  "Association-list model of std::map; refinement to a function HIID -> Option value.")
P("C13", "Record merge is a left- or right-biased union",
  "merge(other,overwrite) yields a record whose fields are exactly the union of both; for a common unprotected field the value is the other's iff overwrite; protected fields of the target are never altered.",
  "all pairs of records",
  "ranges over all pairs of finite maps of unbounded size",
  ["DMI/src/Record.cc: Record::merge"],
  "On the C12 model, induction over the source record.")
P("C14", "List indexing and editing agree with a sequence",
  "get/put/insert/append/remove on a DMI list act as on a finite sequence, negative indices count from the end (-1 is the last element), and out-of-range indices are reported as errors, never undefined behaviour.",
  "all lists, all integer positions, read-only and writable access",
  "every index including negative ones and the empty list",
  ["DMI/src/List.cc: applyIndexConst, applyIndex, get, put, insert, remove"],
  "List model with a distinct undefined-behaviour outcome; correct for the writable path, refuted for the const path with witness.")
P("C15", "Records and lists survive serialisation",
  "Converting a record (list) to a block set and back yields an equal record (list) and consumes exactly the blocks produced, so that containers nested to any depth round-trip.",
  "all records and lists nested to any depth, followed by any further blocks",
  "unbounded nesting depth and width",
  ["DMI/src/Record.cc: toBlock, fromBlock", "DMI/src/List.cc: toBlock, fromBlock"],
  "Recursive tree model; mutual induction on the tree with a suffix of extra blocks.")
P("C16", "Time stamps are exact and normalised",
  "Adding and subtracting time stamps is exact integer microsecond arithmetic; results always have 0 <= usec < 10^6; comparisons agree with comparison of total microseconds.",
  "all pairs of normalised time stamps",
  "all integers, all carries/borrows",
  ["DMI/src/Timestamp.h: operator +=, operator -=, normalize, comparison operators"],
  "Integer model with the normalisation loops; prove value preservation and the range by well-founded recursion.")
P("C17", "Sequence packer round-trips",
  "Unpacking the packed representation of a sequence gives the sequence back, and the reported pack size is the number of bytes written, both for fixed-size and variable-size elements.",
  "all sequences of any length over any element type whose own packer round-trips",
  "unbounded lengths; polymorphic in the element packer",
  ["DMI/src/Packer.h: SeqPacker::pack, unpack, packSize"],
  "Byte-list model parametric in an element codec; induction over the sequence.")
P("C18", "Map packer round-trips",
  "Unpacking the packed representation of a map gives the map back and the reported pack size equals the number of bytes written.",
  "all finite maps, fixed- and variable-size keys and values",
  "unbounded sizes; four combinations of fixed/variable encodings",
  ["DMI/src/Packer.h: MapPacker::pack, unpack, packSize"],
  "Byte-list model; proved where the arithmetic is right, refuted by witness for packSize and the size check on variable-size values.")
P("C19", "Object files are read back exactly, and truncation is never read as data",
  "Reading a file written by a sequence of object writes returns the same objects in the same order and then end-of-file; reading any proper prefix of that file returns a prefix of the objects, followed by end-of-file or an error.",
  "all sequences of objects with non-empty blocks, all truncation points",
  "every crash point (prefix length) of every file",
  ["DMI/src/BOIO.cc: write, nextType, readAny"],
  "Byte-stream model; induction over the object list and over the cut point.")
# ---------------------------------------------------------------- OCTOPUSSY
P("C20", "Subscription matching reflects exactly the current subscriptions",
  "After any history of subscribe, unsubscribe, clear and merge, a message is accepted iff some currently subscribed (id pattern, scope address) pair matches both the message id and the sender address.",
  "all histories and all messages",
  "history-dependent and quantified over all messages",
  ["OCTOPUSSY/src/Subscriptions.cc: add, remove, clear, merge, matches"],
  "Refinement to a finite set of pairs; invariant by induction over the history.")
P("C21", "Subscription sets survive packing",
  "pack followed by unpack yields the same subscriptions, and the cached pack size is exactly the number of bytes written, after any history of changes.",
  "all subscription sets reachable by any history",
  "depends on the history through the cached size",
  ["OCTOPUSSY/src/Subscriptions.cc: pack, unpack, packSize"],
  "Byte model on top of C03; invariant for the cached size.")
P("C22", "Worker-process message queues are priority-ordered and FIFO within a priority",
  "For any history of deliveries and removals the queue is ordered by non-increasing priority, messages of equal priority are handled in order of arrival, and no message is lost or duplicated by queueing.",
  "all enqueue/dequeue histories",
  "ordering invariant over all histories",
  ["OCTOPUSSY/src/WPInterface.cc: enqueue, dequeue", "OCTOPUSSY/src/WPInterface.h"],
  "Queue model; invariant Sorted and stability (filter by priority is append-only) by induction.")
P("C23", "The dispatcher runs the worker with the most urgent message",
  "The poll loop always serves a worker whose head priority is maximal among all workers with work, and stops only if no work is left or the loop budget is exhausted.",
  "all sets of workers and queue contents",
  "all schedules",
  ["OCTOPUSSY/src/Dispatcher.cc: poll", "OCTOPUSSY/src/WPInterface.cc: getPollPriority"],
  "Model of the selection loop; invariant over the fold.")
P("C24", "Worker addresses are unique",
  "No two attached worker processes ever have the same address, for any history of attach/detach of named classes; a new worker never reuses an address currently in use.",
  "all attach/detach histories",
  "uniqueness over all histories",
  ["OCTOPUSSY/src/Dispatcher.cc: attach, detach"],
  "State machine with instance counters; invariant by induction.")
P("C25", "Point-to-point and published messages reach exactly the addressed workers",
  "A message sent to a specific address is queued by exactly that worker if it is local and attached; a broadcast/published message is queued by exactly those attached workers whose subscriptions match, once each.",
  "all sets of attached workers, subscriptions and messages",
  "ranges over all configurations",
  ["OCTOPUSSY/src/Dispatcher.cc: send", "OCTOPUSSY/src/WPInterface.cc: deliver"],
  "Model of send over the list of attached WPs; set characterisation of the recipients.")
P("C26", "Removing an event source only removes that source",
  "removeTimeout/removeInput/removeSignal remove exactly the requested registration and leave all others, including those of other workers, in place and in order.",
  "all registration histories",
  "histories, interleaved owners",
  ["OCTOPUSSY/src/Dispatcher.cc: addTimeout, removeTimeout, addInput, removeInput, addSignal, removeSignal"],
  "List model, refinement to a filter.")
P("C27", "Messages survive the wire",
  "A message converted to blocks and back keeps its id, addresses, priority, state, payload block and payload object.",
  "all messages, with and without each payload kind",
  "all payloads and field values",
  ["OCTOPUSSY/src/Message.cc: toBlock, fromBlock"],
  "Structured header model on top of C03/C15.")
# ---------------------------------------------------------------- MEQ core
P("C28", "Request-id difference masks are exact",
  "diffMask(a,b) has bit i set iff component i of the two request ids differ (missing components counting as 0), and maskedCompare(a,b,m) is true iff all components selected by m agree.",
  "all request ids of any length and all masks",
  "unbounded id length, every mask",
  ["MEQ/src/RequestId.cc: RqId::diffMask, maskedCompare, maskSubId, setSubId, incrSubId"],
  "List/bit model with the 16-bit limit made explicit: exact on the first 16 components, refuted beyond.")
P("C29", "Changing a dependency bumps the request id in exactly its components",
  "setSubId/incrSubId with a dependency mask change exactly the components selected by the mask and leave every other component as it was; consequently the difference mask of old and new id is contained in the mask.",
  "all ids, masks and values",
  "unbounded",
  ["MEQ/src/RequestId.cc", "MEQ/src/Forest.cc: incrRequestId"],
  "Functional model; pointwise theorem.")
P("C30", "Symbolic dependency masks are consistent",
  "After any sequence of set/load/setActive the active mask equals the OR of the masks of the active symbolic dependencies.",
  "all histories",
  "history-dependent cached value",
  ["MEQ/src/SymdepMap.cc: set, load, getMask, setActive", "MEQ/src/SymdepMap.h"],
  "State machine; invariant over histories, counterexample if a step misses the update.")
P("C31", "Node result caching is transparent",
  "For any node whose result depends only on the request-id components in its reported dependency mask, serving results from the cache returns exactly the result a fresh evaluation would produce, for every history of requests, cache clears and cache policies.",
  "all request histories, all dependency masks, all cache policies, all points at which the cache is dropped",
  "needs every history; a stale cache shows up only in particular sequences",
  ["MEQ/src/Node.cc: getCachedResult, cacheResult, clearCache, holdCache, execute", "MEQ/src/Node.h: Node::Cache"],
  "Model of a node with a semantic function respecting its mask; simulation between cached and uncached execution by induction over requests and over the tree.")
P("C32", "Forest indices and names identify nodes uniquely",
  "After any history of node creations and deletions: every live node is found under its index and under its name, no two live nodes share a name, the node count is the number of live nodes, and a failed creation leaves the forest unchanged.",
  "all create/delete histories",
  "history-dependent, index reuse",
  ["MEQ/src/Forest.cc: create, remove, get, findIndex, findNode, clear"],
  "State machine with node table and name map; invariant by induction; the out-of-range lookup is an explicit undefined-behaviour outcome.")
P("C33", "Breakpoint flags and masks agree, single-shot breakpoints fire once",
  "A node is flagged as having a (single-shot) breakpoint iff its breakpoint mask is non-empty; a single-shot breakpoint stops execution at most once; persistent breakpoints keep firing.",
  "all histories of set/clear/execute",
  "histories",
  ["MEQ/src/Node.cc: setBreakpoint, clearBreakpoint, setExecState", "MEQ/src/Forest.cc: setBreakpoint, clearBreakpoint", "MEQ/src/Forest.h: checkGlobalBreakpoints"],
  "Bit-mask state machine; invariant and trace properties.")
P("C34", "Child poll order is always a permutation of the children",
  "Whatever poll orders are requested, successfully or not, every child is polled exactly once per request.",
  "all sequences of poll-order settings over any set of children",
  "histories with failing calls",
  ["MEQ/src/NodeNursery.cc: init, setChildPollOrder, setChild"],
  "Model of setChildPollOrder including the partial update at failure; permutation theorem for success, refutation for failure.")
P("C35", "Synchronous polling combines child outcomes faithfully",
  "A synchronous poll asks the enabled children in poll order, stops only according to the fail/missing-data policy, returns the OR of the children's codes, and reports every child failure unless the policy is to ignore it.",
  "all numbers of children, outcomes and policies",
  "all combinations",
  ["MEQ/src/NodeNursery.cc: syncPoll"],
  "Fold model over the children; characterisation of the polled prefix and returned code.")
P("C36", "Work orders are executed exactly once",
  "Every work order placed in the worker pool is handed to exactly one thread, orders are handed out newest-first, cancelling a client's orders removes exactly those, and the number of busy threads at one depth never exceeds its limit by more than the documented slack.",
  "all interleavings of placing, fetching, finishing and cancelling",
  "thread schedules",
  ["MEQ/src/MTPool.cc: placeWorkOrder, getWorkOrder, finishWithWorkOrder, clearQueue"],
  "Atomic-step state machine (each step is one critical section); invariants by induction over schedules.")
P("C37", "Shape merging is a partial semilattice",
  "Merging array shapes is commutative, associative and idempotent; it fails iff two extents differ and both exceed 1; the merged shape is the least shape to which both broadcast.",
  "all shapes of any rank",
  "algebraic laws over all shapes",
  ["MEQ/src/Axis.h: mergeShape", "MEQ/src/Vells.h: isCompatible"],
  "Option-valued list function; induction on the shapes.")
P("C38", "Broadcast arithmetic touches the right elements",
  "A binary operation on two congruent arrays yields, at each output index, the operation applied to the elements of the operands at that index with collapsed axes read at 0; no element outside the operand storage is read.",
  "all ranks, all pairs of congruent shapes, all element values",
  "pointer stepping with incremental strides over unbounded ranks and extents",
  ["MEQ/src/Vells.cc: computeStrides, implement_binary_*", "MEQ/src/Vells.h: DimCounter::incr, ConstStridedIterator::incr"],
  "Model strides, counter and stepping loop; loop invariant pointer = sum of index*stride.")
P("C39", "Flagged reductions count every point once",
  "sum, mean, product and nelements over a flagged array equal the reduction over the unflagged points of the fully expanded array.",
  "all shapes, flags and values",
  "combination of broadcasting of data and flags",
  ["MEQ/src/Vells.cc: implement_sum, implement_mean, implement_product, implement_nelements"],
  "On the C38 model; proved for nelements and mean without collapsed axes, refuted for sum with flags of greater variability.")
P("C40", "Slicing enumerates each slice once",
  "Iterating a slicer visits every combination of the non-sliced indices exactly once, in order, each time presenting the storage offset of that slice.",
  "all ranks, shapes and sets of sliced axes",
  "pointer arithmetic over unbounded ranks",
  ["MEQ/src/VellsSlicer.cc: init, incr", "MEQ/src/VellsSlicerWithFlags.cc: init, incr"],
  "Loop invariant as in C38.")
P("C41", "Domain envelopes are least upper bounds",
  "The envelope of two domains covers the ranges of both on every axis, and is covered by every domain that does; covering is a partial order; expanding in place gives the same domain.",
  "all domains over any axes",
  "order-theoretic law over all domains",
  ["MEQ/src/Domain.cc: envelope, expandToEnvelope, supersetOfProj"],
  "Finite map axis -> interval over an ordered field; order proofs.")
P("C42", "Cell segments partition the grid",
  "The segments computed for an axis are contiguous, start at the first cell, end at the last cell, do not overlap, and inside a segment the spacing is uniform.",
  "all cell grids of any length",
  "all grids",
  ["MEQ/src/Cells.cc: recomputeSegments"],
  "Loop model; invariant by induction over the grid.")
P("C43", "Changing resolution preserves the cell coverage",
  "Integrating by n and upsampling by n give grids with the stated number of cells covering the same interval; integrating an upsampled regular grid gives the grid back.",
  "all grids and factors",
  "all sizes and factors",
  ["MEQ/src/Cells.cc: Cells(op) constructor"],
  "Rational-arithmetic model; refutation for non-divisible INTEGRATE.")
P("C44", "Cells comparison is equality of grids",
  "compare() returns 0 iff the two grids are the same; equality is reflexive and symmetric.",
  "all pairs of Cells, including empty ones",
  "all pairs",
  ["MEQ/src/Cells.cc: compare, operator =="],
  "Model; refuted for empty Cells, proved for non-empty ones.")
P("C45", "Merged perturbation lists are sorted unions",
  "The list of solvable-parameter ids of a function's result is the strictly increasing union of the children's lists.",
  "all numbers of children and id lists",
  "in-place merge over unbounded lists",
  ["MEQ/src/Function.cc: findSpids"],
  "Model of the in-place merge in one array; refinement to set union.")
P("C46", "Solvable-parameter numbering is a bijection",
  "Making a funklet solvable assigns consecutive distinct ids to exactly the coefficients selected by the mask, and the index table maps each selected coefficient to its position and every other to -1; an update changes exactly the selected coefficients by their own increments.",
  "all masks and starting ids",
  "all masks",
  ["MEQ/src/Funklet.cc: makeSolvable", "MEQ/src/Polc.cc: do_update"],
  "Fold model; induction over the mask.")
P("C47", "Changing a polynomial's normalisation does not change its value",
  "Re-expressing a polynomial with new offset and scale gives the same value at every point.",
  "all polynomials of any degree in one and two variables, all points, all non-zero scales",
  "identity over infinitely many points",
  ["MEQ/src/Polc.cc: transformCoeff, do_evaluate"],
  "Model over a field; binomial theorem from Mathlib; Horner evaluation equals the polynomial sum.")
P("C48", "The parameter table returns what was stored",
  "A funklet stored for a parameter and domain is returned by later lookups for that parameter and any overlapping domain until it is overwritten or deleted; other entries are unaffected; domain numbers never change meaning.",
  "all histories of puts, gets and deletes",
  "history-dependent store",
  ["MEQ/src/FastParmTable.cc: putCoeff, getFunklet, getFunklets, deleteFunklet, makeKey"],
  "Key-value store model with the domain list; refinement to a map (name, domain) -> funklet.")
P("C49", "A vellset's derived shape covers all its parts",
  "After any sequence of values, perturbed values and flags being set, the shape of a vellset is the merge of the shapes of its parts.",
  "all histories",
  "histories",
  ["MEQ/src/VellSet.cc: setShape, adjustShape, setValue, setPerturbedValue, setDataFlags"],
  "State machine on top of C37.")
P("C50", "Failures recorded in a result are not lost",
  "Every failure added to a vellset is reported afterwards.",
  "all sequences of failures",
  "histories",
  ["MEQ/src/VellSet.cc: addFail, numFails, getFail"],
  "State machine; refuted by witness for two failures; partial theorem for what is kept.")
P("C51", "Extracting part of an identifier",
  "subId(pos, n) returns the n components starting at pos, clipped to the identifier, for every start position including negative ones counted from the end, and never reads outside the identifier.",
  "all identifiers, all start positions and counts",
  "every position, including negative and out-of-range ones, for every length",
  ["DMI/src/HIID.cc: HIID::subId"],
  "Functional model with out-of-range reads as undefined behaviour; proved for positions inside the id, refuted by witness for negative positions.")
P("C52", "Prepending a component keeps the rest",
  "push_front(a) yields the identifier consisting of a followed by the old identifier.",
  "all identifiers and components",
  "every length",
  ["DMI/src/HIID.cc: HIID::push_front"],
  "Functional model of the vector operations; proved for the empty id, refuted by witness for longer ones.")
P("C53", "Corrupt subscription blocks are reported",
  "Unpacking an arbitrary byte block as a subscription set either fails with an exception or yields a set whose packed form is exactly that block; it never reads outside the block.",
  "all byte blocks",
  "all blocks, including adversarial size words",
  ["OCTOPUSSY/src/Subscriptions.cc: unpack"],
  "Byte model of C21 with out-of-range reads as undefined behaviour; proved when the size check cannot wrap, refuted by witness otherwise.")
P("C54", "A worker never sleeps on unseen messages",
  "Whenever a message that its worker has not yet been offered is at the head of the worker's queue, the worker has asked to be polled.",
  "all histories of delivery, polling and removal",
  "lost-wakeup property over all histories",
  ["OCTOPUSSY/src/WPInterface.cc: enqueue, dequeue, do_poll", "OCTOPUSSY/src/Dispatcher.cc: poll"],
  "Invariant by induction over queue operations.")
P("C55", "An accepted message is handed out once",
  "A message that the receiving worker accepted is removed from its queue and never offered again.",
  "all queue states and everything the handler does",
  "the handler may reenter the queue",
  ["OCTOPUSSY/src/WPInterface.cc: do_poll"],
  "Model of the poll step with the handler's effects; proved when the handler leaves the queue head alone, refuted by witness otherwise.")
P("C56", "Timeouts fire when due",
  "After any history of registering, removing and firing timeouts, an event check delivers exactly the timeouts that are due, each once; a one-shot timeout is then gone and a continuous one is next due one period after the check.",
  "all histories and clock readings",
  "the check is skipped through a cached nearest deadline that must stay a lower bound over all histories",
  ["OCTOPUSSY/src/Dispatcher.cc: addTimeout, removeTimeout, checkEvents"],
  "State machine with the cached deadline; invariant by induction; refinement of the check to a filter.")
P("C57", "Waiting messages age",
  "Every round that serves another worker increases the urgency of a waiting message relative to newly arriving ones, so no message waits for ever behind a bounded priority.",
  "all queue states and schedules",
  "liveness over all schedules",
  ["OCTOPUSSY/src/WPInterface.cc: getPollPriority", "OCTOPUSSY/src/Dispatcher.cc: poll"],
  "Model of the tick-based priority; arithmetic over any selection round.")
P("C58", "An idle dispatcher has no work left",
  "Whenever the poll loop finds nothing to run, no attached worker has a message it has not been offered.",
  "all histories",
  "depends on all earlier deliveries and polls",
  ["OCTOPUSSY/src/Dispatcher.cc: poll", "OCTOPUSSY/src/WPInterface.cc: getPollPriority"],
  "Invariant over the dispatcher state machine; proved for non-negative priorities, refuted by witness for negative ones.")
P("C59", "Each ready descriptor is reported once to each interested worker",
  "An event check sends, for every registered (worker, descriptor) with some ready wanted kind, exactly one event listing exactly the wanted kinds that are ready; fired one-shot registrations are gone and all others stay.",
  "all registration histories and all readiness outcomes",
  "all histories and all subsets of ready descriptors",
  ["OCTOPUSSY/src/Dispatcher.cc: checkEvents, rebuildInputs"],
  "Model of the scan over inputs, using the C26 invariant that the watched sets cover all registrations.")
P("C60", "Identifiers are read back from their own text",
  "Printing an identifier and parsing the text yields the same identifier, for symbolic, numeric and literal components joined plainly, by slashes or by range signs.",
  "all identifiers of any length over all registries of names",
  "unbounded length, arbitrary registered names and literal strings",
  ["DMI/src/HIID.cc: toString, addString, makeLiteral", "DMI/src/AtomicID.cc: toString, findName"],
  "Text model over the C07 registry; induction over the components; refutation by witness for empty components.")
P("C61", "Removing a field hands back its value",
  "removeField(id) returns a reference to the object the field held and leaves the record without that field.",
  "all records and fields, attached or still packed",
  "all combinations of how the field got its value",
  ["DMI/src/Record.h: Field::xfer", "DMI/src/Record.cc: Field::makeObject, removeField"],
  "Record model of C12; refutation by witness for attached objects, proof for packed fields.")
P("C62", "Container access to record fields is always defined",
  "Reading or writing a field through the container interface, by name or by number, returns the field, reports it missing, or fails; it is never undefined behaviour.",
  "all records, all identifiers and numbers",
  "all field numbers and record sizes",
  ["DMI/src/Record.cc: get(HIID,ContentInfo)"],
  "Record model of C12 with undefined behaviour as an outcome; refutation by witness for valid field numbers, proof for the rest.")
P("C63", "Appending a list appends its items once",
  "append(other) adds the items of the other list, in order, also if it is the same list.",
  "all lists", "non-termination cannot be observed by a test",
  ["DMI/src/List.cc: append(const List&)"],
  "List model of C14; proof for distinct lists; proof that the loop does not end for a non-empty list appended to itself.")
P("C64", "Corrupted blocks are rejected",
  "Reconstructing containers from an arbitrary block set returns or fails, but never is undefined behaviour.",
  "all block sets", "all byte strings",
  ["DMI/src/Record.cc: fromBlock", "DMI/src/List.cc: fromBlock", "DMI/src/DynamicTypeManager.cc: construct"],
  "Byte-level model of C15 with undefined behaviour as an outcome; refutation by witnesses; proof for list headers.")
P("C65", "Arrays survive packing",
  "pack followed by unpack of a C array of elements yields the same elements.",
  "all arrays and element packers", "unbounded lengths and element sizes",
  ["DMI/src/Packer.h: ArrayPacker"],
  "Byte-level model; refutation for fixed-size elements (the copy starts at the wrong place), induction for elements of variable size.")
P("C66", "Rewinding an object file",
  "After reading an object file to its end and rewinding it, the same objects can be read again.",
  "all files and read positions", "all read positions",
  ["DMI/src/BOIO.cc: rewind, nextType, readAny"],
  "Model of C19; refutation after end of file, proof before.")
P("C67", "A failed write does not spoil an object file",
  "If writing an object fails, objects written before and after are still read back.",
  "all sequences of writes", "every failing object at every place in the file",
  ["DMI/src/BOIO.cc: write, readAny"],
  "Model of C19; refutation for later objects, proof for earlier ones.")
P("C68", "Damaged messages are rejected",
  "Reading a message from an arbitrary block set returns a message or fails, but never is undefined behaviour.",
  "all block sets", "all byte strings from the network",
  ["OCTOPUSSY/src/Message.cc: fromBlock"],
  "Byte-level model of C27 with undefined behaviour as an outcome; refutation by witnesses, proof for non-negative sizes.")
P("C69", "A changed dependency always gives a new request id",
  "A request id obtained by announcing a change of a symbolic dependency differs, in the components of that dependency, from every request id made before it, so no cached result depending on it is reused.",
  "all histories of changes of all dependencies", "unbounded histories",
  ["MEQ/src/Forest.cc: incrRequestId", "MEQ/src/RequestId.cc: setSubId"],
  "Counter invariant over histories; refutation when two dependencies share a bit.")
P("C70", "Multithreaded polling",
  "Under every schedule of the worker threads a multithreaded poll comes to its end, has then computed every enabled child exactly once, and returns the same code as the single-threaded poll.",
  "all schedules, children, outcomes and policies", "thread schedules",
  ["MEQ/src/NodeNursery.cc: syncPoll, mt_receiveSyncChildResult"],
  "Event machine of parent, work orders and deliveries; invariant over reachable states, decreasing measure, refutation under the abandon policy.")
P("C71", "Compatibility of shapes",
  "The compatibility test of two arrays succeeds exactly when the first can be expanded to the shape of the second.",
  "all pairs of shapes", "shapes of any rank",
  ["MEQ/src/Vells.h: isCompatible"],
  "Shapes as lists of extents; refutation for a first shape with more axes, proof otherwise.")
P("C72", "Maximum and minimum of a flagged array",
  "The maximum (minimum) reduction returns the largest (smallest) unflagged value of the array expanded to its grid.",
  "all arrays, flag arrays, flag masks and grids with an unflagged point", "all values, shapes and patterns of flags",
  ["MEQ/src/Vells.cc: reduction functions max, min"],
  "Model of C39; refutation for arrays of negative values, proof when some value reaches the start value.")
P("C73", "Envelopes pass the superset test",
  "The superset test says whether a domain includes the other's projection onto its own axes; the envelope of two domains passes it against both.",
  "all pairs of domains", "all ranges and sets of axes",
  ["MEQ/src/Domain.cc: supersetOfProj, envelope"],
  "On the model of C41; refutation for domains with different axes.")
P("C74", "Combining cells",
  "The superset of two Cells is empty exactly if they conflict on an axis both have; otherwise it has the cells of one or the other along every axis of either, and their domain if each fills its domain.",
  "all pairs of proper Cells", "all grids and sets of axes",
  ["MEQ/src/Cells.cc: superset, recomputeDomain, setCells"],
  "Loop invariants over the axes.")
P("C75", "Resampling by nothing changes nothing",
  "The resampling constructor without any operation gives Cells that compare equal to the original.",
  "all proper Cells", "all grids and ranks",
  ["MEQ/src/Cells.cc: Cells(op) constructor, operator =="],
  "Model of C43 and C44; refutation for Cells with fewer than 8 axes.")
P("C76", "A regular grid divides its range",
  "Setting a regular grid of n cells of default size over a range gives n equal cells without gaps that start and end where the range does, and leaves the other axes alone.",
  "all ranges and numbers of cells", "all sizes",
  ["MEQ/src/Cells.cc: setCells"],
  "Rational-arithmetic model.")
P("C77", "Perturbed values of a function",
  "A function's result depends on exactly the parameters its children depend on; its perturbed value for a parameter is the function of the children's perturbed values for it (main values for children that do not depend on it), with the children's common perturbation; evaluation succeeds exactly if all those evaluations do, shapes fit and perturbations agree; nothing is read out of bounds.",
  "all functions, numbers of children, parameters and values", "all combinations of dependencies of any number of children",
  ["MEQ/src/Function.cc: getResult", "MEQ/src/VellSet.h: isDefined"],
  "Invariant: each child's position is the number of its ids below the current one. Refutation of definedness for children with different numbers of perturbation sets.")
P("C78", "Planes and return code of a function's result",
  "A function's result has the tensor dimensions of its non-scalar children; each plane is computed from the children's corresponding planes only (scalars are used for every plane); the call reports failure exactly if all planes failed, and missing data exactly if all planes are without data.",
  "all functions, children, numbers of planes and failures", "all combinations of failed and missing planes",
  ["MEQ/src/Function.cc: getResult", "MEQ/src/Result.cc: allocateVellSets"],
  "Plane-by-plane model of the call; the return code is refuted for planes that fail because a child's plane failed.")
P("C79", "A failed vellset carries no data",
  "A vellset to which a failure is added has no value, shape, flags, weights or perturbed values.",
  "all vellsets and failures", "all contents",
  ["MEQ/src/VellSet.cc: addFail, clear", "MEQ/src/VellSet.h: hasDataWeights"],
  "Model of C49; refutation for weights.")
P("C80", "Value and perturbed values of a polynomial",
  "Evaluating a polynomial at a point gives its value there, and for every coefficient the values of the polynomial with that coefficient changed by its perturbation, up and down in turn.",
  "all polynomials in one and two variables, perturbations and points", "all degrees, infinitely many points",
  ["MEQ/src/Polc.cc: do_evaluate"],
  "Horner's scheme and the power loops equal the polynomial sum; refutation for more than 10 coefficients in the second variable.")
P("C81", "Solve domain of a polynomial",
  "Choosing a solve domain leaves the polynomial's values unchanged, and in terms of its normalised coordinates its validity domain becomes the solve domain.",
  "all polynomials, all proper solve and validity domains", "all domains and points",
  ["MEQ/src/Polc.cc: changeSolveDomain, transformCoeff"],
  "On top of C47; refutation for polynomials with one axis.")
P("C82", "Changing the number of coefficients",
  "A polynomial whose coefficients are given another shape keeps the coefficients of all degrees that both shapes have; new ones are 0.",
  "all polynomials and shapes", "all shapes",
  ["MEQ/src/Polc.cc: setCoeffShape"],
  "Invariant of the copying loop; refutation when the number of axes changes.")
P("C83", "Making a polynomial solvable does not change it",
  "A polynomial has the same values after it is made solvable.",
  "all polynomials and masks", "all coefficients and points",
  ["MEQ/src/Polc.cc: makeSolvable"],
  "Model of C46; refutation for the default mask.")
P("C84", "Domain numbers survive restarts",
  "When a parameter table is closed and opened again, any number of times, its domains are those that were added, under the same numbers; after a crash the domains written completely are still there, and domains added afterwards keep their numbers over the next restart.",
  "all sequences of additions and restarts, all crash points", "crash at any byte",
  ["MEQ/src/FastParmTable.cc: openDomainList, putCoeff, closeDomainFile"],
  "Byte-level model of the domain file (buffered, append mode). Refutation for a crash in the middle of an entry.")
P("C85", "Keys of the parameter table are unambiguous",
  "Different pairs of parameter and domain number have different keys, and the parameter's name and number can be read back from its key.",
  "all names and numbers", "unbounded names",
  ["MEQ/src/FastParmTable.cc: makeKey, decomposeKey"],
  "Byte-level model.")
P("C86", "Records of the parameter table are read as written",
  "The blocks of a funklet are read back from the database record as they were written; a record that has lost its end is rejected.",
  "all numbers and sizes of blocks, all truncation points", "unbounded contents",
  ["MEQ/src/FastParmTable.cc: getFunklet, putCoeff"],
  "Byte-level model of the record; the 8-byte prefix, which is read as a constant, is a witness against truncation in general.")
P("C87", "Access to parts of an array",
  "An identifier of as many indices as the array has axes gives the element at these indices, or an error if one is out of range; ranges, steps and wildcards select exactly the elements at the positions they name, in order, with one axis for each range or wildcard; axes that are not named are taken whole; impossible selections are rejected.",
  "all extents, all selections on any number of axes", "all ranks and extents",
  ["DMI/src/NumArray.cc: NumArray::get, parseHIID"],
  "Model of the parser as a state machine; invariant over the identifier; strided walk = positions named. Refutations for ends out of range, open ends, steps that do not divide and axes that are not named.")
P("C88", "Arrays survive their blocks",
  "An array of numbers or strings is rebuilt from its block with the same element type, extents and contents; a block that has lost its end, or has something after it, is rejected; the extents of an accepted array are not negative.",
  "all element types, extents, contents and truncation points", "unbounded contents",
  ["DMI/src/NumArray.cc: toBlock, fromBlock"],
  "Byte-level model. Refutations: a block that ends within the extents; negative extents.")
P("C89", "Arrays are values",
  "Copies and received arrays have the contents of the original, and changing one array never changes another, although data are shared until they are changed.",
  "all histories of making, copying, sending, changing and clearing arrays", "unbounded histories",
  ["DMI/src/NumArray.cc: cloneOther, init, clear, toBlock, fromBlock, reference", "DMI/src/NumArray.h: makeWritable"],
  "Refinement of the shared heap to independent values; refutation for arrays that are part of another one.")
P("C90", "Messages between processes arrive intact, in order, once",
  "However the bytes of a connection are divided into reads, in whatever order the reader threads run, and wherever the connection is cut, the messages processed are the first of those sent, unaltered, in order, each once; everything that arrived completely can be processed, and when all is read everything was.",
  "all messages, divisions into reads, schedules of any number of reader threads, cut points", "schedules and byte boundaries",
  ["OCTOPUSSY/src/MTGatewayWP2.cc: readerThread, transmitMessage, readyForHeader", "OCTOPUSSY/src/MTGatewayWP.cc: processIncoming"],
  "Byte-level model of packets and of the reader threads with their two locks; invariant over all schedules.")
P("C91", "A reader resynchronises",
  "A reader that meets junk in the stream finds the next message after it.",
  "all junk without the signature, all schedules", "unbounded contents",
  ["OCTOPUSSY/src/MTGatewayWP2.cc: readerThread"],
  "Same invariant for junk without the first letter of the signature; refutation for headers that begin like a signature.")
P("C92", "A message that cannot be unpacked does no harm to others",
  "A message that cannot be unpacked is dropped, and the others are processed as if it had not been sent.",
  "all messages, all ways of unpacking, all schedules", "unbounded histories",
  ["OCTOPUSSY/src/MTGatewayWP2.cc: readerThread", "OCTOPUSSY/src/MTGatewayWP.cc: processIncoming"],
  "Same invariant if nothing is left of the message; refutation by blocks that are left.")
P("C93", "A gateway takes what is wanted at the other end",
  "A gateway whose table describes the process at the other end takes a message that was just sent if and only if a worker there gets it.",
  "all sets of workers, subscriptions, destinations and messages", "all addresses and subscriptions",
  ["OCTOPUSSY/src/MTGatewayWP.cc: willForward", "OCTOPUSSY/src/Dispatcher.cc: send"],
  "The decision against the recipients the dispatcher at the other end finds. Refutation for '*'.")
P("C94", "The routing table follows the workers of the peer",
  "Whatever workers came, went and changed their subscriptions before and after a connection was made, once all news have arrived the routing table of the gateway says of each worker of the peer what is true of it; the table in the first message of a connection is read as it was sent.",
  "all histories of the peer, any moment of connection, all tables", "unbounded histories and a race between snapshot and updates",
  ["OCTOPUSSY/src/MTGatewayWP.cc: start, processInitMessage, processIncoming", "OCTOPUSSY/src/WPInterface.cc: do_start, do_stop, publishSubscriptions"],
  "Invariant over the news about a worker; byte-level round trip of the first message. Refutation: subscriptions changed while stopping.")
P("C95", "Exactly once over all processes",
  "Among processes that are all connected to each other, a message reaches each worker it is for, at whatever process, exactly once, and no other, in whatever order dispatchers and gateways work.",
  "all numbers of processes, all workers, all schedules", "all schedules and network sizes",
  ["OCTOPUSSY/src/Dispatcher.cc: send", "OCTOPUSSY/src/MTGatewayWP.cc: willForward, receive, processIncoming"],
  "Conservation law: deliveries made plus deliveries to come is constant. Refutation: a message to everybody.")
P("C96", "Scopes are respected",
  "A message published for the process or the host reaches the subscribers within it and no others, in whatever form it was published; a subscription with a scope takes messages from senders within it and no others.",
  "all addresses, subscriptions and messages", "all addresses",
  ["OCTOPUSSY/src/WPInterface.cc: publish", "OCTOPUSSY/src/WPInterface.h: publish, subscribe", "OCTOPUSSY/src/MTGatewayWP.cc: willForward"],
  "Address computed by publish against the recipients. Refutation: publish with an id passes the scope as the flags.")
P("C97", "Messages do not circulate",
  "In a network of processes, connected in whatever way and whatever the routing tables say, a message causes a bounded number of steps.",
  "all networks, tables and schedules", "termination over all schedules",
  ["OCTOPUSSY/src/MTGatewayWP.cc: willForward, receive, processIncoming", "OCTOPUSSY/src/Dispatcher.cc: send"],
  "The number of tasks a task leads to, by depth in hops. Refutation: a message to everybody.")
P("C98", "Composing results",
  "A composed result has the planes of its children, in order; in tensor mode a new first axis numbers the children and scalars are repeated; its return code tells whether all of its planes are failures or all are missing; it has as many planes as its dimensions say.",
  "all numbers of children, all their dimensions and planes", "all dimensions and mixtures of tensors, scalars, failures and empty children",
  ["MeqNodes/src/Composer.cc: getResult", "MEQ/src/Result.cc: setVellSet"],
  "Loop invariants over the children. Refutations: counts of failures and of planes that differ in tensor mode; a result larger than its dimensions.")
P("C99", "Selecting from a tensor",
  "A selector returns exactly the planes its indices name, in order, with the dimensions of the sliced axes; indices that do not exist are refused.",
  "all ranks, extents and selections", "all ranks, extents and selections",
  ["MeqNodes/src/Selector.cc: getResult"],
  "The strided walk against row-major positions. Characterisation of the selections for which it is right; refutation for two sliced axes.")
P("C100", "Pasting into a tensor",
  "Pasting replaces exactly the planes the indices name; selecting them afterwards gives back what was pasted; what does not fit is refused.",
  "all ranks, extents and selections", "all ranks, extents and selections",
  ["MeqNodes/src/Paster.cc: getResult"],
  "On top of C99. Refutation for two sliced axes.")
P("C101", "Products of matrices",
  "The product of any number of scalars and matrices is the product of their values, for the main value and with any parameter perturbed, and depends on the parameters its factors depend on; failures are in the planes they belong to.",
  "all numbers of factors, all sizes, all sets of parameters, all values in a commutative ring", "all sizes and parameter sets",
  ["MeqNodes/src/MatrixMultiply.cc: computeSum, scalarMultiply, getResult", "MEQ/src/Function.cc: findSpids"],
  "Refinement to Mathlib's matrices, perturbed values by the theorem of C77. Refutation for a scalar that is zero.")
P("C102", "Dimensions of results",
  "Exactly the valid indices of a tensor are accepted, each names another plane and every plane has one; a result that is sent to another process has the same dimensions there.",
  "all ranks, extents, indices and ways of building a result", "all ranks and histories",
  ["MEQ/src/Result.h: getOffsetChk", "MEQ/src/Result.cc: Result, allocateVellSets, setDims, validateContent, setVellSet"],
  "Mixed-radix numbers; invariant over building operations. Refutation for one plane with two axes.")
P("C103", "Threaded channels: what is posted",
  "Every event whose posting to a threaded channel succeeded reaches the channel behind it, in the order of posting and once, before closing returns.",
  "all event sequences, all schedules of the two threads, all behaviours of the channel behind, spurious wake-ups included", "all schedules",
  ["AppAgent/AppAgent/src/MTQueueChannel.cc: runWorker, postEvent, close, flush"],
  "Two-thread transition system; inductive invariant: accepted = sent + in flight + queued. Refutation: closing marks the channel closed before it flushes.")
P("C104", "Threaded channels: what is fetched",
  "The application gets the events of the channel behind in order and each at most once, and until it closes the channel every event fetched has been got or is queued.",
  "all event sequences, schedules and behaviours of the channel behind", "all schedules",
  ["AppAgent/AppAgent/src/MTQueueChannel.cc: runWorker, getEvent"],
  "Same invariant, for the other queue.")
P("C105", "Threaded channels: bounded queues",
  "Neither queue of a threaded channel ever holds more events than the queue size, whichever side is faster.",
  "all schedules, queue sizes and behaviours", "all schedules",
  ["AppAgent/AppAgent/src/MTQueueChannel.cc: runWorker, postEvent, getEvent"],
  "Same invariant.")
P("C106", "Threaded channels: errors reach the application",
  "Every exception of the channel behind is thrown to the application exactly once and in order, at its next call or at the latest when it closes the channel.",
  "all schedules and exceptions", "all schedules",
  ["AppAgent/AppAgent/src/MTQueueChannel.cc: runWorker, checkErrorQueue, close"],
  "Same invariant: raised = thrown + on the list; closing returns with an empty list.")
P("C107", "Threaded channels: calls end",
  "No call of a threaded channel blocks for ever: a call that waits goes on when what it waits for has happened or can no longer happen.",
  "all schedules, queue sizes and behaviours of the channel behind", "deadlock freedom over all schedules",
  ["AppAgent/AppAgent/src/MTQueueChannel.cc: runWorker, postEvent, getEvent, flush, close"],
  "Ranking functions for the worker; invariants on who sleeps when; lost-wakeup analysis. Refutations: waiting for an event when the channel behind closes, closing with an error on the list, closing with events in both queues.")
P("C108", "Visibility streams: baselines have their own places",
  "Tiles of different baselines never share a place in the tables of the stream node, a tile has a place exactly if both its antennas were announced in the header, and no stream of events makes the node read or write outside its tables and arrays.",
  "all antenna numbers, headers and sequences of events", "arithmetic over all numbers; all event sequences",
  ["VisCube/src/VisVocabulary.h: ifrNumber", "MeqServer/src/VisDataMux.cc: deliverHeader, deliverTile, fillCells"],
  "Triangular numbers; invariant: while a data set comes in, the tables have the size of its header.")
P("C109", "Visibility streams: what the tree is run on",
  "A data set is cut into snippets of consecutive tiles with one sequence number. For each, in order, the start child is run, the tiles go to the nodes of their baselines with their rows, the child before is run, each sink whose baseline has a tile is run once, and the child after, all with the same new request.",
  "all data sets, node tables, child configurations, outcomes of the calls, and streams before", "all data sets and interleavings of baselines",
  ["MeqServer/src/VisDataMux.cc: deliverHeader, deliverTile, deliverFooter, startSnippet, endSnippet"],
  "Induction over the tiles from within a snippet, against a specification that groups tiles; the calls' outcomes are an oracle over the whole trace.")
P("C110", "Visibility streams: each node gets its baseline",
  "A node attached for a baseline gets, over all data sets and streams, the header of each data set that has the baseline, exactly the tiles of the baseline in order, each with the request of its snippet, and the footer.",
  "all sets of nodes, data sets and streams", "all histories of streams",
  ["MeqServer/src/VisDataMux.cc: checkChildren, deliverHeader, deliverTile, deliverFooter"],
  "Projection of C109 to one node; induction over data sets; refutation: resizing the tables drops nodes.")
P("C111", "Visibility streams: the output is well formed",
  "The output stream is a sequence of data sets, each a header, tiles and a footer, and holds every tile a sink returned, once and in order, after the header of its data set.",
  "all event sequences, sink results and output failures", "all event sequences and failures",
  ["MeqServer/src/VisDataMux.cc: endSnippet, postHeader, deliverFooter, deliverHeader"],
  "Invariant on the kept header and the form of what was written; the wanted output is a function of the trace.")
P("C112", "Visibility streams: errors are reported",
  "If a stream ends with success every call made for it went well; and if the events are as they should be and all calls go well it ends with success and the output is closed.",
  "all event sequences and call outcomes", "all event sequences and failures",
  ["MeqServer/src/VisDataMux.cc: pollChildren, deliverTile, endSnippet"],
  "Every function is a sequence of atomic steps, each of which keeps errors; both directions by induction over the steps.")
P("C113", "Visibility streams: the limit on snippets",
  "With a limit of n snippets, the tree is run on the first n snippets of each data set and on no others, and the data set is ended properly.",
  "all data sets and limits", "all data sets",
  ["MeqServer/src/VisDataMux.cc: deliverTile, deliverFooter, pollChildren"],
  "Part of the induction of C109.")
P("C114", "Spigots give the data and flags of the request",
  "A spigot's result has one plane per correlation asked for. Its values are those of the column in the rows of the request; a sample is flagged exactly if its flags or its row's flags have a bit of the mask or the row is missing.",
  "all tiles, rows, correlation lists, masks and flag bits", "all tiles and settings",
  ["MeqServer/src/Spigot.cc: deliverTile, readColumn, getRowFlags", "MeqServer/src/Spigot.h"],
  "Tiles as functions of their indices; flags bit by bit. Refutation without a flag mask.")
P("C115", "Spigots give each request its own tile",
  "What a request gets from a spigot was delivered for a matching request; in a series of snippets every request gets the tile of its snippet, and a request for which a tile was delivered gets one.",
  "all histories of deliveries and requests", "all histories",
  ["MeqServer/src/Spigot.cc: deliverTile, getResult"],
  "Queue as a list; induction over histories. Refutations: other requests empty the queue; a second tile of a snippet is never used.")
P("C116", "Sinks write what they should and nothing else",
  "A sink writes the values and flags of each plane to the correlation the plane is mapped to, in the rows of the request, and leaves all else in the tile as it was; the tile is attached to the result exactly if something was written.",
  "all tiles, results, rows, mappings and masks", "frame conditions over all tiles",
  ["MeqServer/src/Sink.cc: getResult, mapOutputCorr, fillTileColumn"],
  "Induction over the planes with a frame invariant. Refutations for flags of part of a tile, zero planes and single planes.")
P("C117", "From spigot to sink nothing is changed",
  "A tree that passes a spigot's result to a sink with the same correlations copies the input column to the output column and leaves the flags as they are.",
  "all tiles, rows and correlation lists", "all tiles and settings",
  ["MeqServer/src/Spigot.cc: deliverTile", "MeqServer/src/Sink.cc: getResult"],
  "Composition of C114 and C116.")
P("C118", "Tiles of a grid are where they should be",
  "For any tile sizes and any grid of cells, the solver's tiling has exactly the tiles needed to cover the grid, walking over the grid meets every cell once in order, and at every cell the tiling's current tile is the one the cell lies in.",
  "all grids of any number of axes (axes not defined included) and all tile sizes", "sizes need not divide each other; counters of all axes interact",
  ["MeqNodes/src/Solver.cc: Tiling::init, Tiling::advance", "MeqNodes/src/Solver.h: Tiling", "MEQ/src/Vells.h: DimCounter"],
  "Tiling as a list of axes; invariant: counters are the cell's index modulo the tile size and the current tile is the position of the quotient.")
P("C119", "Solver tiles are made of whole tiles of every parameter",
  "The solver's tile sizes are on each axis the least common multiple of the parameters' tile sizes, or the whole axis, and each tile of each parameter is put in the solver tile it lies in.",
  "all grids and all sets of parameters with any tile sizes", "number theory over all sizes, last tiles that are cut off",
  ["MeqNodes/src/Solver.cc: populateSpidMap", "MeqNodes/src/Solver.h: DimVector"],
  "Search for the multiple proved against IsLcm; the walk of C118 over the grid of tiles gives the solver tiles. Refutation: division by zero with undefined axes.")
P("C120", "Every tile of every parameter has an unknown of its own",
  "Each parameter has as many unknowns as tiles; no two tiles share an unknown; each subsolver's unknowns are numbered from zero without gaps; tiles share a subsolver exactly if they have the same solve group and lie in the same solver tile.",
  "all grids, all sets of parameters, tile sizes and solve groups", "a bijection over all assignments",
  ["MeqNodes/src/Solver.cc: populateSpidMap", "MeqNodes/src/Solver.h: DimVector::operator<"],
  "Counting invariants for the allocation loop. Refutation: tile sizes that cannot be compared are taken for the same key.")
P("C121", "Exactly the valid unflagged points make equations",
  "A child's result adds, for each point not flagged by the mask, of positive weight and with valid numbers, one equation (two if complex) for each solve group it has derivatives for, to the subsolver of that group and the point's solver tile, unless that has converged; nothing else is added.",
  "all results, flags, weights, masks, derivatives and solve groups", "all data",
  ["MeqNodes/src/Solver.cc: fillEquations, fillEqVectors"],
  "The loop is shown equal to a list comprehension over the cells.")
P("C122", "Equations and updates are about the same tile",
  "Unknowns can be given to the tiles of the parameters such that each derivative is put on the unknown of the tile the point lies in, and the solution for an unknown is what that very tile is updated by.",
  "all grids, parameters, tilings, results and solutions", "end to end over two nodes and three numberings",
  ["MeqNodes/src/Solver.cc: fillEqVectors, fillRider", "MEQ/src/ComposedPolc.cc: do_update"],
  "Composition of C118 - C121 and C123 for parameters with the same tile sizes. Refutation: the solver tile is used as index of the parameter's tile.")
P("C123", "Updates reach the tile they were solved for",
  "The value a tile of a parameter is updated by is the solution for that tile's unknown, in the subsolver of its solve group and solver tile.",
  "all grids, parameters, tilings and solutions", "an order of delivery against an order of application",
  ["MeqNodes/src/Solver.cc: fillRider", "MEQ/src/ComposedPolc.cc: do_update", "MeqNodes/src/Parm.cc: processCommand"],
  "Slices by solver tile shown equal to the tiles in order when these are ordered alike (always so with one tiled axis). Refutation: two tiled axes.")
P("C124", "Every solvable coefficient has its own entry in the spid map",
  "After discovery the spid map has exactly one entry for each solvable coefficient of each parameter, under its own number and with its node, solve group and tile sizes; the place of a coefficient's updates is its rank among its node's entries.",
  "all sets of parameters with any coefficient masks", "all sizes and sets of nodes",
  ["MeqNodes/src/Parm.cc: initSolvable, discoverSpids", "MEQ/src/Funklet.cc: makeSolvable", "MEQ/src/Node.cc: discoverSpids"],
  "Induction over the parameters. Refutation: more than 256 coefficients.")
P("C125", "A solution is one discovery, at most max-iterations evaluations, and perhaps one update",
  "The requests the solver sends are a discovery of unknowns, then at most as many evaluations as iterations are allowed, then at most one final update; they are numbered from 0 and each evaluation announces the next number. The number of iterations reported is the number of evaluations, or one less if the last gave no equations.",
  "all settings, replies of the children, fits, interrupts and aborts", "unbounded loop with outside events at any time",
  ["MeqNodes/src/Solver.cc: getResult"],
  "Loop invariant over the history of requests.")
P("C126", "Every solution is sent to the parameters exactly once, in order",
  "With last_update the parameters are sent the incremental solutions of all iterations, each exactly once and in order; without it all but the last.",
  "all settings, replies, fits, interrupts", "the history of updates over all runs",
  ["MeqNodes/src/Solver.cc: getResult, fillRider"],
  "Invariant: what was delivered is the rows so far but the last. Refutation: an interrupt in an iteration without equations sends the last update twice.")
P("C127", "The solver result says what the fits gave and whether enough of them converged",
  "The rows of incremental solutions are those of the fits; converged means that the quota of subsolvers has converged, for the first time after the last iteration.",
  "all settings, replies and fits", "a property of whole runs",
  ["MeqNodes/src/Solver.cc: getResult, Subsolver::solve", "MeqNodes/src/Solver.h"],
  "Invariant; as documented if there are equations for all. Refutation: subsolvers without equations count as converged.")
P("C128", "An abort ends the solution with the code for an abort and sends no more updates",
  "If the abort flag is raised while the solver runs, it returns the code for an abort and no solver result; no update is sent any more.",
  "all times at which the flag is raised", "all points in time",
  ["MeqNodes/src/Solver.cc: getResult"],
  "Cases of the way out of the loop. Refutation: the flag raised while the last fits are made.")
P("C129", "A solution all of whose children fail is a failure",
  "If all children fail in an iteration the solver returns a failure; a failure of the discovery is returned.",
  "all settings, replies and fits", "all combinations of failures",
  ["MeqNodes/src/Solver.cc: getResult"],
  "Proved: failing children have no influence at all; the discovery's failure is returned. Refutation for failures in iterations.")
P("C130", "Solved parameters are saved exactly when that was asked for",
  "If saving of funklets is asked for, the last request tells the parameters to save, and no other does; otherwise none does.",
  "all settings, replies, fits, interrupts", "the history of commands over all runs",
  ["MeqNodes/src/Solver.cc: getResult"],
  "Invariant over the riders. Refutation: without last_update, the default, the command is put in a request that is never sent.")
P("C131", "Solving with worker threads gives what one thread gives",
  "However the threads take turns, a multi-threaded solve leaves every subsolver with the solution and convergence, and gives the count, of the single-threaded loop; no two threads ever work on the same subsolver, and afterwards no worker touches any.",
  "any number of workers, any subsolvers, any fits, every schedule, any number of calls before, wake-ups without reason", "every interleaving",
  ["MeqNodes/src/Solver.cc: processSolversLoop, activateSubsolverWorkers, workerLoop"],
  "Transition system of main thread and N workers with two mutexes; invariants for ownership of subsolvers, counts and mutexes, for all schedules.")
P("C132", "A fit that throws in a worker thread is reported",
  "A multi-threaded solve ends normally exactly if no fit throws; otherwise it throws, with exceptions that fits threw, none reported more often than it was thrown.",
  "any number of workers, every schedule, any fits throwing", "every interleaving",
  ["MeqNodes/src/Solver.cc: processSolversLoop, activateSubsolverWorkers"],
  "Same transition system; the multiset of exceptions is part of the invariant.")
P("C133", "A multi-threaded solve always comes back",
  "While a solve runs some thread can go on by itself, and all of them together only for a bounded number of steps, so the solve comes back; workers told to stop all end.",
  "any number of workers, every schedule", "absence of deadlock and lost wake-ups in every interleaving",
  ["MeqNodes/src/Solver.cc: activateSubsolverWorkers, workerLoop, stopWorkerThreads"],
  "A measure that every effective step decreases, and an enabled step in every reachable state in a call.")
P("C134", "A tiled parameter has one domain for each tile, and every cell lies in exactly one",
  "For tile sizes in time and frequency there are as many tile domains as tiles, in order; each goes from the start of its first cell to the end of its last; the centre of a cell is in the domain of its own tile and in no other.",
  "all grids of ordered cells, all tile sizes, also those that do not divide the grid", "all grids and sizes",
  ["MeqNodes/src/Parm.cc: GetTiledDomains"],
  "List of domains as a product of ranges; centres against edges by the order of the cells.")
P("C135", "A composed funklet has in each cell the value of a part that is for it, and the default elsewhere",
  "For each cell the value is that of a part whose domain has the centre of the cell; if there is none it is the default.",
  "all lists of parts, constant or not, overlapping or not, all grids", "all parts and grids",
  ["MEQ/src/ComposedPolc.cc: initFunklets, do_evaluate, fill_const_value", "MEQ/src/ComposedPolc.h: compareDomain", "MEQ/src/Polc.cc: do_evaluate"],
  "The nested loops with their counters as functions on lists; a lemma for the cell written; induction over the parts. Refutation: a part that ends before the grid.")
P("C136", "A tiled parameter evaluates each cell with the coefficients of its tile",
  "A funklet prepared for tiles has one part for each tile in order of the tiles; the value of a cell is that of the part of its tile; a funklet that does not fit the tiles is replaced by its first part repeated.",
  "all grids, tile sizes, funklets", "all grids and sizes",
  ["MeqNodes/src/Parm.cc: initTiledFunklet, checkTiledFunklet, GetTiledDomains", "MEQ/src/ComposedPolc.cc"],
  "C134 and C135 together; tiles are already in the order of the sort.")
P("C137", "A copy of a composed funklet has the same values",
  "A composed funklet that is copied, or made from the record of another, has the same value in every cell.",
  "all parts, defaults and grids", "all parts and grids",
  ["MEQ/src/ComposedPolc.cc: copy constructor, validateContent"],
  "From C135 for cells some part is for. Refutation: the default is lost.")

P("C138", "What a parameter starts from for a new domain",
  "For a request with a new domain a parameter uses its entry of the table (the first of several if solvable, all of them composed if not), else the default of the table, else what it had if the settings allow, else the initial funklet, else the default value.",
  "all settings, tables, histories of requests and commands, domains", "all histories and tables",
  ["MeqNodes/src/Parm.cc: findRelevantFunklet, initFunklet, getResult, clearFunklets", "MeqNodes/src/ParmDBInterface.cc: getFunkletFromDB"],
  "The choice as a relation separate from the code, shown to have one solution; invariant over all histories. Refutation: an entry for half of a domain is not used after a request for the whole.")
P("C139", "A parameter that is not solvable has no memory",
  "A parameter that is neither solvable nor caches its funklet gives for any request what a newly made one would, whatever it was asked before, and never writes to the table.",
  "all settings, tables, histories", "all histories",
  ["MeqNodes/src/Parm.cc: getResult, processCommand"],
  "Invariant: no funklet between requests.")
P("C140", "Each update of a solution is added once, in order",
  "While a parameter is being solved for, its coefficients are those at the start plus all updates delivered, each once and in order, however requests for values and saving are interleaved and requests repeated.",
  "all sequences of requests and commands, all updates", "all sequences",
  ["MeqNodes/src/Parm.cc: processCommand, getResult, discoverSpids"],
  "Induction over the sequence, for any kind of coefficients. Refutation: an update after another command of the same request.")
P("C141", "What is saved is what is read back",
  "After saving, any parameter of that name set up with the table starts from the saved coefficients for that domain; no other entry is changed.",
  "all tables, coefficients, domains, settings of the reader", "all tables",
  ["MeqNodes/src/ParmDBInterface.cc: save, getFunkletFromDB", "MEQ/src/FastParmTable.cc: putCoeff, getFunklets"],
  "The row written as an explicit relation of the tables before and after; C138 for the reader. Refutation: an earlier entry that overlaps.")
P("C142", "Only solutions that have converged are saved",
  "Unless the settings say otherwise, a solution is written to the table when asked for and said to have converged, and only then.",
  "all settings, tables, histories", "all histories",
  ["MeqNodes/src/Parm.cc: processCommand"],
  "Invariant over histories without convergence; the decision for one command. Refutation: a solution that did not converge after one that did.")
P("C143", "A solution is saved for the domain it was made for",
  "After a request for values to solve with for a domain, an update that is saved is written to a row for that domain and to no other.",
  "all settings, tables, histories, domains", "all histories",
  ["MeqNodes/src/Parm.cc: initFunklet, initSolvable, processCommand", "MEQ/src/Domain.cc: supersetOfProj"],
  "From the domain of the funklet after the request and the row written. Refutation: solving for half of the domain solved for before.")
P("C144", "Functions flag their output where an input is flagged",
  "The output of a function node has, at each point of the grid, exactly the flag bits that some child has there and that child's mask lets through; tensor functions give every element those of all elements of all children.",
  "all grids, flag arrays that broadcast to them, masks, numbers of children", "all shapes and masks",
  ["MEQ/src/Vells.cc: mergeFlags", "MEQ/src/Function.cc: evaluateFlags", "MEQ/src/TensorFunction.cc: evaluateTensorFlags"],
  "Induction over the children; broadcasting by C37 and C38.")
P("C145", "Merging flags adds the chosen bits and loses none",
  "The flag merger returns the first child's result with, at each point of each element, its own bits and those within the mask of the elements of the other children that go with it, and fails if the dimensions do not go together. No bit an element has is lost.",
  "all results, masks, dimensions, numbers of children", "all tensors",
  ["MeqNodes/src/MergeFlags.cc: getResult, mergeChildFlags"],
  "Invariant over the loop over children. Refutation: one child with a mask.")
P("C146", "The zero flagger adds its bit where the condition holds",
  "Where the main value satisfies the comparison with 0 the flag bit is ORed into the flags, and nowhere else; other bits stay.",
  "all values, comparisons, flags before", "all arrays",
  ["MeqNodes/src/ZeroFlagger.cc: getResult", "MeqNodes/src/ZeroFlagger.h"],
  "Exact description of the flags after, by cases. Refutation: other bits set before.")
P("C147", "A reduced value is flagged exactly if all of its input is",
  "The output of a reduction, to a scalar or along axes, is flagged exactly if every point it comes from is flagged under the mask.",
  "all flag arrays, masks, slices", "all flag words and masks",
  ["MeqNodes/src/ReductionFunction.cc: isAllFlagged, evaluateFlags"],
  "Exact decision of the code's test. Refutations: a mask without bit 0; flags outside the mask.")
P("C148", "A reduction over children flags a point exactly if all children do",
  "With several children the output of a reduction is flagged at a point exactly if every child is flagged there under its mask.",
  "all numbers of children, flag arrays, masks", "all numbers of children",
  ["MeqNodes/src/ReductionFunction.cc: evaluateFlags", "MEQ/src/Vells.h: whereEq"],
  "Invariant: bit i of the scratch flags is set where child i is flagged. Refutation: 31 children.")
P("C149", "Replacing flagged values changes exactly the flagged points",
  "The output is the first child's value with the given value at exactly the points flagged, under its mask, in one of the other children; its flags are those of the first child.",
  "all values and flag arrays that broadcast to a grid, masks", "all shapes",
  ["MeqNodes/src/ReplaceFlaggedValues.cc: evaluateFlags, evaluate", "MEQ/src/Vells.h: replaceFlaggedValues"],
  "C144's merging and C38. Refutation: a value constant along an axis of the flags.")
P("C150", "Stripping drops derivatives and nothing else",
  "A stripper's output has no derivatives, and the same main values and flags as its input.",
  "all elements", "all contents of an element",
  ["MeqNodes/src/Stripper.cc: getResult", "MEQ/src/VellSet.cc: setValue"],
  "By cases. Refutation: an element with derivatives and flags.")
P("C151", "A multiplexer returns its chosen child's answer",
  "With the default policies a request multiplexer returns the result of its designated child, failures included, and reports a failure or missing data exactly if that child does.",
  "all numbers of children, replies, poll orders", "all replies",
  ["MeqNodes/src/ReqMux.cc: pollChildren, getResult", "MEQ/src/Node.cc: execute"],
  "Exact decision from the polling theorems of C35. Refutation: the chosen child fails.")
P("C152", "Other children do not affect a multiplexer's answer",
  "With the default policies a multiplexer executes every enabled child, and nothing a child other than the designated one returns changes its answer.",
  "all replies of all other children", "all replies",
  ["MeqNodes/src/ReqMux.cc: pollChildren"],
  "From the decision of C151.")
P("C153", "A sequencer asks its children in order, each under its own request id",
  "A request sequencer executes its children one after another in order, up to the first failure or missing data its policies do not ignore; child i gets the request id with i added to every component of the sequence mask, so no two children see the same id.",
  "all numbers of children, masks, ids, replies", "all numbers of children and ids",
  ["MeqNodes/src/ReqSeq.cc: pollChildren", "MEQ/src/RequestId.cc: incrSubId"],
  "Induction over the children with C29.")
P("C154", "A sequencer returns its chosen child's answer and all dependencies",
  "With the default policies a sequencer reports a failure or missing data exactly if its designated child does, names every dependency of its children and itself, and returns the designated child's result.",
  "all requests, numbers of children, replies", "all replies",
  ["MeqNodes/src/ReqSeq.cc: pollChildren, getResult", "MEQ/src/Node.cc: execute"],
  "Closed form of the loop. Refutation: a request without cells.")
P("C155", "A sequencer's cache is transparent",
  "If its children report what they depend on, a sequencer answers a request after any history as it would without a cache.",
  "all histories of requests", "all histories",
  ["MeqNodes/src/ReqSeq.cc: pollChildren", "MEQ/src/Node.cc: getCachedResult, cacheResult"],
  "Invariant on the cache; C28. Refutation: a request without cells, then one with cells.")
P("C156", "A disabled child is not executed",
  "A disabled child of a sequencer or multiplexer gets no request.",
  "all nodes and requests", "all requests",
  ["MeqNodes/src/ReqSeq.cc: pollChildren", "MEQ/src/NodeNursery.cc: syncPoll"],
  "C35. Refutation: a sequencer.")
P("C157", "An equation's derivatives predict its change",
  "A conditional-equation node returns, per element, its second child less its first, and for every parameter either child depends on the difference quotient of the first less that of the second; if the children are affine in the parameters, value less the sum of derivatives times changes is the value after the changes.",
  "all tensors of children, sets of parameters, one or two sets of perturbed values, changes", "all parameter lists and values",
  ["MeqNodes/src/Condeq.cc: getResult, calcDerivative", "MEQ/src/Function.cc: findSpids"],
  "Induction over the merged list of parameters with an invariant on the positions in both children's lists; sums over the union of parameters.")
P("C158", "An equation modulo something uses the nearest representative",
  "With a modulo the value is the one nearest to zero of those congruent to the difference, derivatives of children that are affine up to multiples of the modulo are exact if the steps change less than half of it, and complex values are refused.",
  "all moduli, values, steps", "all values",
  ["MeqNodes/src/Condeq.cc: getResult, calcDerivative", "MEQ/MEQ/Vells.h: remainder"],
  "Properties of rounding to the nearest integer over the rationals.")
P("C159", "An equation's elements are of one type, with all flags and the weight",
  "Value and derivatives of an element are all complex or all real, real exactly if all values of both children are; the flags are the union of both children's; the weight is the third child's element.",
  "all elements, orders in which complex derivatives turn up", "all orders of real and complex derivatives",
  ["MeqNodes/src/Condeq.cc: getResult", "MEQ/src/VellSet.cc: setDataWeights"],
  "Closed form of the loop.")
P("C160", "An equation keeps the failures of its children",
  "An element without a value in a child gives an element without a value; an element that failed in a child does not become one that merely has no value.",
  "all results of children", "all tensors of elements",
  ["MeqNodes/src/Condeq.cc: getResult"],
  "From the closed form. Refutation: one failed element of a tensor.")
P("C161", "An equation without a child's result is missing",
  "The node's result is missing exactly if one of its first two children has no result; tensors of different dimensions are refused.",
  "all results of children", "all combinations",
  ["MeqNodes/src/Condeq.cc: getResult"],
  "Decision. Refutation: the first child has no result.")
P("C162", "A function of tensors is evaluated for every perturbed parameter",
  "The result of a node that computes a function of whole tensors has the function's values for the main values and, for every parameter any element of any child depends on, for the arguments with that parameter perturbed; there is such a result exactly if the function succeeds on all of these and children agree on the perturbations; an element without a value makes the node fail.",
  "all functions, numbers and sizes of children, parameters", "all functions and sizes",
  ["MEQ/src/TensorFunction.cc: getResult, computeTensorResult"],
  "All elements as one list of children of a function (C77), grouped again.")
P("C163", "Inverting a matrix gives the inverse",
  "The product of a 2 by 2 matrix (elements without a value being zero) and the result is the unit matrix, for main values and for every perturbed parameter, if the determinants are not zero; a scalar gives the reciprocal; a failed element gives a failure; other shapes are refused.",
  "all matrices over a field, parameters", "all values",
  ["MeqNodes/src/MatrixInvert22.cc: getResult"],
  "Field arithmetic and the lemma about functions of tensors.")
P("C164", "Transposing exchanges the last two axes",
  "The result of transposing has the last two axes exchanged, for each matrix of a tensor, every element in its place and conjugated if asked for; transposing matrices twice gives the matrix back.",
  "all extents and numbers of axes, elements", "all shapes",
  ["MeqNodes/src/Transpose.cc: getResult, conjTranspose"],
  "Row-major positions; the moves as a permutation. Refutation: two 1 by 3 matrices.")
P("C165", "Stokes parameters give the coherency matrix",
  "The result is the Hermitian matrix with XX+YY, XX-YY, XY+YX and XY-YX the scaled I, Q, U and iV; null U and V give a diagonal one and null Q too a scalar; values that are not there count as zero.",
  "all values, scales, null and missing elements", "all combinations of missing elements",
  ["MeqNodes/src/Stokes.cc: getResult"],
  "Arithmetic and case analysis. Refutation: Q missing, U present.")
P("C166", "A rider's commands are performed by the nodes they are for",
  "For each of its groups in order, a node performs the commands for all, those of the first entry in the group's list that names it (or names nobody), and those for its index, in order, until one throws; it performs nothing else. An entry with a list of names or indices is for the listed nodes only.",
  "all riders, nodes, groups, commands and what they do", "all riders and nodes",
  ["MEQ/src/Node_commands.cc: processRequestRider, processCommands"],
  "Performing as a relation; the model's nested loops equal performing a flat list. Refutation: an empty list of names.")
P("C167", "Commands put into a rider reach the nodes meant",
  "Commands put into a request's rider for all nodes of a group, for one node index or for listed nodes are performed by exactly those nodes; adding to a rider keeps what it has unless asked not to.",
  "all riders, flags, groups, nodes", "all riders and nodes",
  ["MEQ/src/Rider.cc: getCmdRec_All, getCmdRec_ByNodeIndex, getCmdRec_ByList, getGroupRec", "MEQ/src/Node_commands.cc: processRequestRider"],
  "Composition of building and C166. Refutation: a list of entries.")
P("C168", "A node is executed by one thread at a time",
  "Whatever any number of threads do (executing, clearing or holding the cache, reading or changing the state, stopping at breakpoints), at most one executes a node at any time, at most one uses its cache and at most one its state.",
  "all schedules of any number of threads", "all interleavings",
  ["MEQ/src/Node.cc: execute, setExecState, clearCache, holdCache, setState, getSyncState", "MEQ/src/Node.h: exitExecute"],
  "Transition system with two mutexes, a condition variable with spurious wake-ups and the executing flag; invariant over all schedules.")
P("C169", "Threads at one node do not wait for ever",
  "While any thread is in a call to a node, some thread can go on; every schedule comes to an end with all threads out and everything free, unless threads go on starting calls or stopping.",
  "all schedules of any number of threads", "all interleavings",
  ["MEQ/src/Node.cc: execute, setExecState, clearCache, holdCache", "MEQ/src/Node.h: exitExecute"],
  "Same transition system: progress from the invariant; a measure that decreases.")
P("C170", "The breakpoint flag of a node's status agrees with its breakpoints",
  "When no call is in progress, the status of a node says that there are breakpoints exactly if there are.",
  "all interleavings of setting a breakpoint and clearing the cache", "all interleavings",
  ["MEQ/src/Node.cc: setBreakpoint, clearCache, setControlStatus"],
  "Two threads that read and write one word under different mutexes. Refutation: a schedule.")
P("C171", "An execution returns a result or says why not",
  "Executing a node returns a result unless the code says aborted or wait; the code says updated exactly if the result did not come from the cache; whatever is thrown inside becomes a failed result; what is returned is what is cached; nothing is called after a cache hit, riders are processed for new requests only, children polled only by active nodes. No exception leaves the call.",
  "all requests, cached results, codes, results and exceptions of what is called, abort flags", "all combinations of outcomes",
  ["MEQ/src/Node.cc: execute, cacheResult", "MEQ/src/Node.h: exitExecute, exitAbort", "MEQ/src/NodeFace.h: execute"],
  "Decision logic with outcomes of the callees as inputs; every way through the function. Refutation: storing throws twice.")
P("C172", "A node's status says how the last execution ended",
  "After an execution the status of a node says ok, wait, empty, missing or failed as the code does, and whether the answer came from the cache.",
  "all executions and earlier statuses", "all combinations of outcomes",
  ["MEQ/src/Node.cc: execute", "MEQ/src/Node.h: exitAbort"],
  "As C171. Refutations: an abort after a failure; missing data found by the node itself.")
P("C173", "A node's failures are posted as errors",
  "Every failure that arises in a node is posted as an error; nothing else is.",
  "all executions", "all combinations of outcomes",
  ["MEQ/src/Node.cc: execute"],
  "As C171. Refutation: an evaluation that returns a failure.")
P("C174", "A lock object that says it is locked is locked",
  "Whatever threads do with lock objects (making, copying, assigning, releasing, relocking, trying), an object that says it is locked has its thread holding the mutex, no two objects of different threads say so of one mutex, and a mutex is held exactly as often as there are objects that hold it.",
  "all sequences of operations of any number of threads on any number of objects and mutexes", "all interleavings",
  ["TimBase/src/Thread/Mutex.h: Mutex::Lock"],
  "Recursive mutexes as counts per thread, objects as pointers; an invariant that counts. Refutation: TRY on a busy mutex.")
P("C175", "A wait with a timeout lasts as long as the timeout",
  "If nobody wakes the thread, Condition::wait(timeout) ends when the timeout is over.",
  "all times of day and all timeouts that are not negative", "depends on the microsecond at which it is called",
  ["TimBase/src/Thread/Condition.h: Condition::wait", "OCTOPython/src/ProxyWPObject.cc: receive, await"],
  "Integer arithmetic of the struct timespec, and the kernel's check of it. Refutation: half a second at half past a second.")
P("C176", "Read and write locks exclude each other",
  "While a thread has a write lock no other thread has a lock, whatever the schedule of locking, nesting, upgrading and downgrading; and a thread goes on as soon as nobody is in its way.",
  "all schedules of any number of threads, with spurious wake-ups", "all interleavings",
  ["TimBase/src/Thread/SmartLock.cc: rlock, wlock, runlock, wunlock, wlock_upgrade, rlock_downgrade"],
  "Transition system with ghost counts of what each thread has; invariant over all schedules.")
P("C177", "Threads that wait for a read or write lock are woken",
  "A thread that is asleep though it could have the lock is not forgotten: some thread is awake in a call.",
  "all schedules of any number of threads", "all interleavings",
  ["TimBase/src/Thread/SmartLock.cc: rlock, wlock, runlock, wunlock, wlock_upgrade, rlock_downgrade"],
  "Same transition system. Refutations: an upgrade; two readers. Proved: nobody sleeps at a lock nobody has.")
P("C178", "The cells of a node's result fit all its children",
  "If the children's cells are accepted, the cells attached to the node's result have, along every axis on which a child's values vary, as many points as the child's own cells and the same domain; children that agree wherever they vary are accepted, children with other numbers of points or domains refused.",
  "all numbers of children, all cells and shapes, all sharing of cells objects", "all combinations of cells, shapes and sharing",
  ["MEQ/src/Node.cc: checkChildCells", "MEQ/src/Axis.h: mergeShape"],
  "Loop over children with an invariant that relates the cells so far to every child compared. Refutation: a child that shares the first child's cells but varies along more axes.")
P("C179", "A node reports the solvable parameters of all its children",
  "The map of parameters a node returns has for every parameter what the first child that knows it says, and knows exactly those that some child knows.",
  "all children's maps", "all combinations of maps",
  ["MEQ/src/Node.cc: discoverSpids", "DMI/src/Record.cc: merge"],
  "Induction over children.")
P("C180", "A caller that polls its children asynchronously is given each child's result exactly once",
  "Between startAsyncPoll and the -1 of awaitChildResult every enabled child's result for the present request is handed out exactly once, and nothing of an earlier poll; the caller never sleeps without anybody to wake it, and the poll can always be brought to its end.",
  "all numbers of children and workers, schedules and histories of polls, with and without aborts", "the interleavings of a parent and several workers over repeated polls are unbounded, and the failing ones need an abort at the right moment",
  ["MEQ/src/NodeNursery.cc: startAsyncPoll, mt_receiveAsyncChildResult, awaitChildResult, mt_abortPoll", "MEQ/src/MTPool.cc: getWorkOrder, clearQueue", "MeqNodes/src/Solver.cc: awaitChildResult loop"],
  "A transition system of the parent and any number of workers; invariant on the multiset of queued, running, received and handed out orders; refuted by a schedule with an abort; completion by draining.")
P("C181", "When finishPoll returns, the step-children polled in the background have been executed",
  "finishPoll returns only when every enabled child of the background poll has been executed for the present request; it can always be brought to its return.",
  "all numbers of children and workers, schedules and histories of polls, with and without aborts", "it depends on the schedule and on whether any earlier execution was aborted",
  ["MEQ/src/NodeNursery.cc: backgroundPoll, mt_receiveBackgroundResult, mt_waitForEndOfPoll, finishPoll, abortPoll", "MEQ/src/Node.h: exitExecute, exitAbort"],
  "The same transition system; the flag abandon_ that an abort leaves up refutes the full statement.")
P("C182", "A weighted sum is the sum of its children's values times their weights",
  "Whatever weights were given in whatever order of states, a WSum of n children yields the sum of w_i v_i with the weights last given: 1 if none, one for all if one, 0 for those left out.",
  "all numbers of children, sequences of weights and values", "all vectors of weights, including zero and missing ones, of any length",
  ["MeqNodes/src/WSum.cc: setStateImpl, evaluate", "MEQ/src/Function.cc: getResult", "MEQ/src/NodeNursery.h: enableChild"],
  "Induction over the children; a zero weight disables the child, whose result is then missed, which refutes the full statement.")
P("C183", "A weighted mean is normalised by the sum of the weights, at every evaluation",
  "A WMean yields the weighted sum divided by the sum of the weights last given, at the first evaluation and at every later one, whatever was evaluated between.",
  "all numbers of children, sequences of weights and evaluations, values", "normalisation changes the weights in place, so the history of evaluations matters",
  ["MeqNodes/src/WMean.cc: NormWeights, evaluate", "MeqNodes/src/WSum.cc: evaluate"],
  "Normalisation is idempotent; induction over the history.")
P("C184", "The name of an axis leads back to it",
  "After any sequence of axis maps set, axes added and resets, looking up the name of an axis gives that axis, and the axes used for time and frequency are those with these names.",
  "all sequences of axis maps, additions and resets", "the map is global and changed in place, so that what is left of earlier maps matters",
  ["MEQ/src/Axis.cc: defineAxis, setAxisMap, setAxisRecords, addAxis, resetDefaultMap", "MEQ/src/Axis.h: axis, axisId"],
  "Induction over the operations; refuted by a map of one name.")
P("C185", "A domain sent as a record is received as the same domain",
  "A domain made with the sender's names of axes and read by a receiver whose names are others has the same ranges on the same axes.",
  "all domains, and all histories of names of axes at both ends", "the result depends on the histories of the global maps of two processes",
  ["MEQ/src/Domain.cc: defineAxis, validateContent", "MEQ/src/Axis.cc: setAxisMap"],
  "Fields are read one by one, induction over them; refuted by a sender with the default names.")
P("C186", "A domain record is accepted or refused, whatever is in it",
  "Reading any record as a domain ends in a domain or an exception: empty ranges and unknown names of axes are refused.",
  "all records and histories of names of axes", "records come from anywhere and can name any axes",
  ["MEQ/src/Domain.cc: validateContent", "MEQ/src/Axis.h: axis"],
  "Induction over the fields; refuted by a field called 8.")
P("C187", "Of two processes that hear of each other's servers exactly one makes the connection",
  "If two processes are not connected and either has a server the other can use (a local one on the same host, a network one otherwise), then exactly one of them initiates a connection upon the other's advertisements, and to what was advertised.",
  "all pairs of processes, their ranks, hosts and servers", "all combinations of two processes' identities and servers",
  ["OCTOPUSSY/src/GWClientWP.cc: receive", "OCTOPUSSY/src/GWServerWP.cc: advertiseServer", "DMI/src/HIID.cc: operator <", "OCTOPUSSY/src/MsgAddress.h: peerid"],
  "Case analysis over the decision, with the order on peer ids total.")
P("C188", "The connection manager never does anything undefined",
  "For any configuration, any answers of the sockets and any order of timers and messages, no connection is used after it was removed.",
  "all configurations and histories of events", "depends on a connection failing for longer than half a minute while others are on the list",
  ["OCTOPUSSY/src/GWClientWP.cc: timeout, activate, tryConnect, removeConnection"],
  "Transition system; refuted by a server that cannot be reached; proved without advertisements.")
P("C189", "A configured peer is tried again until it is connected, for ever",
  "A peer that was configured stays on the list of connections; one that is not connected is tried again every two seconds, an attempt is ended after ten, and one whose gateway ends is tried at once.",
  "all configurations, answers of sockets and histories of events", "it is about every later moment of an unbounded history",
  ["OCTOPUSSY/src/GWClientWP.cc: timeout, receive, tryConnect, addConnection"],
  "Invariants on the times kept in each connection, by induction over the history.")
P("C190", "Connections are listed once, own a socket only while being made, and are looked after",
  "At any time there is at most one connection per host and port; it holds a socket exactly while an attempt is under way; and then the reconnection timer is running.",
  "all configurations, answers of sockets and histories of events", "an invariant of all histories",
  ["OCTOPUSSY/src/GWClientWP.cc: timeout, activate, receive, addConnection, tryConnect"],
  "Induction over the history.")
P("C191", "A value that Python sends to the kernel and reads back is the same",
  "A Python value made of the types the interface knows (numbers, truth values, text, identifiers, sequences, arrays, records, messages, None), nested to any depth, is converted to a kernel value that converts back to an equal value, up to the kind of sequence.",
  "all values of the known types, nested without bound", "nested values of mixed types are unbounded in number; failures depend on combinations of inner types",
  ["OCTOPython/src/DataConv.cc: pyToDMI, pyFromDMI, pyToRecord, pyToArray, pyToMessage, getDMIType", "OCTOPython/src/dmi.py: dmi_typename", "MeqServer/src/py3compat.h", "DMI/src/Vec.cc: put, prepareForPut"],
  "Mutual induction over values; the pending Python exception is part of the state.")
P("C192", "Fields of a record are converted independently of each other",
  "A record is always converted; each field that converts on its own arrives with the value it has on its own, whatever the other fields are; and every field arrives.",
  "all records and fields", "one bad field may affect any other",
  ["OCTOPython/src/DataConv.cc: pyToRecord, pyFromRecord", "OCTOPython/src/LazyObjRef.cc"],
  "Induction over the fields.")
P("C193", "Attributes of a message are carried over exactly",
  "The identifier, priority, sender, addressee, state, hop count and payload of a message arrive exactly, whichever of the optional ones are set.",
  "all messages", "all combinations of attributes and payloads",
  ["OCTOPython/src/DataConv.cc: pyToMessage, pyFromMessage", "OCTOPython/src/dmi.py: message"],
  "Case analysis.")
P("C194", "A kernel value that Python reads and gives back is identical",
  "A kernel value that Python can read, given back unchanged, is the same value with the same types.",
  "all kernel values, nested without bound", "nested values of mixed types are unbounded in number",
  ["OCTOPython/src/DataConv.cc: pyFromDMI, pyToDMI", "OCTOPython/src/dmi.py: dmi_typename"],
  "Mutual induction over values.")
P("C195", "Columns of a data tile have memory of their own",
  "Each defined column of a tile with rows has a part of the tile's memory, aligned to the size of its elements and within the block, that no other column of the tile meets; every element of every row can be read.",
  "all formats, numbers of rows and histories of operations", "all formats and sizes; an error is a silent overlap",
  ["VisCube/src/ColumnarTableTile.cc: computeOffsets, applyOffsets", "VisCube/src/VTile.cc: initArrays"],
  "Induction over the columns for the layout, and an invariant of all histories.")
P("C196", "An assignment to an element of a tile changes that element only",
  "An assignment to an element of a tile shows in that element of that tile, and in no other element of that or any other tile, whichever tiles share memory.",
  "all histories of operations, tiles, columns, rows and values", "sharing depends on the whole history of copies",
  ["VisCube/src/VTile.h: makeWritable, array accessors", "VisCube/src/ColumnarTableTile.h: makeWritable, wcolumn", "MeqNodes/src/Sink.cc: fillTileColumn"],
  "An invariant relating arrays, pointers and blocks, by induction over the history.")
P("C197", "Copies of a tile are equal and then independent",
  "A copy of a tile has its format, rows, identifier and values; an operation on one tile does not show in another, even if they share memory; a new tile is zero.",
  "all histories and operations", "sharing depends on the whole history of copies",
  ["VisCube/src/ColumnarTableTile.cc: cloneOther, init, makeWritable", "VisCube/src/VTile.cc: VTile copy constructor, init"],
  "The same invariant.")
P("C198", "A tile that is sent arrives as it was when it was sent",
  "A tile that is sent is received with the format, rows, identifier and values it had, whatever is done to it or other tiles meanwhile, and after those sent before.",
  "all histories before and between sending and receiving", "operations between sending and receiving are unbounded",
  ["VisCube/src/ColumnarTableTile.cc: toBlock, fromBlock", "VisCube/src/VTile.cc: fromBlock"],
  "The same invariant, with messages as owners of blocks.")
P("C199", "Rows copied from one tile to another arrive in the rows asked for",
  "Rows copied from a tile arrive in the rows of the other tile asked for, with all columns; its other rows are as before; an empty tile gets as many rows, the format and the identifier; rows that do not exist are refused.",
  "all tiles, formats, ranges of rows and histories", "all formats and ranges",
  ["VisCube/src/ColumnarTableTile.cc: copy, applyFormat, addRows", "VisCube/src/VTile.cc: copy"],
  "Copies of bytes as a list of jobs with disjoint targets, then the place of each element.")
P("C200", "Rows can be added to a tile without loss",
  "Adding rows keeps the values of the rows there were, and the new ones are zero; setting the identifier changes nothing else.",
  "all tiles, formats, numbers of rows and histories", "all formats and sizes",
  ["VisCube/src/ColumnarTableTile.cc: addRows, setTileId", "VisCube/src/VTile.cc: addRows"],
  "As C199.")
P("C201", "A change of format keeps the columns both formats have",
  "A tile with rows can be given another format: columns that are the same in both keep their values, all others are zero.",
  "all tiles, pairs of formats and histories", "all pairs of formats",
  ["VisCube/src/ColumnarTableTile.cc: changeFormat", "VisCube/src/VTile.cc: changeFormat"],
  "As C199.")
P("C202", "A saved configuration loads back",
  "A configuration that is saved to a file and loaded from it has the same settings; an integer that is set is what one gets.",
  "all names, values and numbers of settings", "all texts; some characters are special to the format",
  ["DMI/src/ConfigMgr.cc: save, load, merge, set, get"],
  "The reading of one line in the middle of a file, then induction over the settings.")
P("C203", "The last source of a setting counts",
  "At the start of a program a setting has the value given last: by the general, host's and program's file of the configuration directory, the same files of the current directory, the file named on the command line, the command line.",
  "all files, lines, arguments and names", "all combinations of files and lines",
  ["OCTOPUSSY/src/OctopussyConfig.cc: init", "DMI/src/ConfigMgr.cc: merge, mergeLine, set, remove"],
  "A fold of settings has the last one for each name.")
P("C204", "Options of the command line",
  "An option is found if and only if an argument other than the program's name starts with it; its value is the rest of the first such argument, or else the next argument, or else empty.",
  "all command lines and options", "all command lines",
  ["OCTOPUSSY/src/OctopussyConfig.cc: getOption"],
  "Induction over the arguments.")
P("C205", "A node's children are those named in its definition",
  "A definition of a node is accepted if and only if its name and index are free, its children are known to its class, no more than it takes, and all mandatory ones are there; child number k is then the node named for it by label, by number or by position.",
  "all classes, labels, definitions and forests", "all combinations of labels, numbers and optional children",
  ["MEQ/src/Node.cc: Node, childLabelToNumber", "MEQ/src/Node_init.cc: attachInitRecord", "MEQ/src/Forest.cc: create"],
  "Induction over the fields; a field for a child does not touch others.")
P("C206", "A batch of nodes that is created without errors is the tree that was defined",
  "If a batch of definitions is created without errors then there is exactly one node for each definition, at its index, linked to the existing nodes it names as children, stepchildren and parents, and active; definitions that agree with each other are created without errors, in any order of children and parents.",
  "all batches of definitions", "all trees, cyclic references and orders of definition",
  ["MeqServer/src/MeqServer.cc: createNodeBatch", "MEQ/src/Forest.cc: create, initAll", "MEQ/src/Node_init.cc: init, initChildren", "MEQ/src/NodeNursery.cc: init, setChild"],
  "Creation: invariant over definitions. Linking does not change which nodes exist, so all nodes see the same forest.")
P("C207", "A node that cannot be set up does not keep others from being set up",
  "If in a batch of accepted definitions some refer to nodes that do not exist, or have settings that are refused, just their nodes are made inactive and counted as errors; all others are set up. A definition that is refused is counted and changes nothing.",
  "all batches of definitions", "all combinations of good and bad definitions",
  ["MEQ/src/Forest.cc: create, initAll, get", "MEQ/src/Node_init.cc: init", "MeqServer/src/MeqServer.cc: createNodeBatch"],
  "Initialisation of a node depends only on itself and on which nodes exist.")
P("C208", "A node depends on what it was told to depend on",
  "Whatever a node is told, by its class, its definition, records and from Python, its dependency mask has just the bits of the masks of its active dependencies, or is the mask that was given with or after them; records that are refused have no effect, and the state record shows the mask.",
  "all classes, maps of dependencies, definitions and histories of records, failures and calls", "all histories, including failures in the middle of a change",
  ["MEQ/src/SymdepMap.cc: getMask, setActive, set, load", "MEQ/src/Node.cc: setDependMask, setStateImpl, setState", "MEQ/src/Node_init.cc: attachInitRecord", "MeqServer/src/MeqPython.cc: set_node_active_symdeps"],
  "Invariant between the node and what was asked for, by induction over events.")
P("C209", "Vectors behave as lists that share nothing",
  "Whatever is created, copied, assigned, put, resized, removed, sent and received, each vector has the type, size and elements that a list with the same history has: changes of one vector do not show in its copies, in messages made from it before or in vectors received from them, and what is received is what was sent, with missing objects missing.",
  "all types of elements, all environments and all sequences of operations on any number of vectors and messages", "all histories of sharing of header blocks between vectors, copies and messages",
  ["DMI/src/Vec.cc: init, makeWritable, resize, put, get, insert, remove, toBlock, fromBlock, resolveObject, cloneOther", "DMI/src/Vec.h"],
  "Refinement of vectors with shared header blocks by lists, by induction over operations.")
P("C210", "A change of resolution is the one asked for",
  "Whatever settings a ModRes node was given and requests it passed on before, the next request's cells are changed as its last settings say: upsampling by k divides each cell into k equal ones, downsampling by k joins cells by k and the last ones by as many as are left, a number of cells divides the domain evenly, no setting leaves them as they are, and other axes are left alone.",
  "all histories of settings and requests, all factors, numbers and cells", "all grids, factors and histories",
  ["MeqNodes/src/ModRes.cc: setStateImpl, pollChildren", "MeqNodes/src/ModRes.h"],
  "Invariant between the node's members and the last settings, by induction over the history; exact formulas for the edges of new cells.")
P("C211", "Integrated values are means over the new cells",
  "When a Resampler node integrates values to other cells of the same domain, each new value is the mean of the old values, weighted with the parts of the old cells that lie in the new cell, whatever the sizes of the cells.",
  "all divisions of the two axes into old and new cells, all values, constant along an axis or not", "all grids of any number and sizes of cells",
  ["MeqNodes/src/Resampler.cc: ResampleMachine::bin_search, Integrator::setup, Integrator::insert, Integrator::do_resample, Resampler::getResult"],
  "Correctness of the binary search by induction; the edges of a new cell are those of the old cells that meet it, with their parts as weights; sums over edges are sums over cells.")
P("C212", "Flagged values do not count in integrated values",
  "When a Resampler node integrates flagged values, only values without flags in the mask count for the mean; the new value is flagged if and only if more than the given part of the old cells that overlap with it are flagged, with the flag bits given or, if none are, with those of the flagged values in the mask.",
  "all divisions into cells, values, flags, masks, flag bits and densities", "all grids, flags and policies",
  ["MeqNodes/src/Resampler.cc: Integrator::do_resample, Integrator::apply"],
  "The same edges as for C211; counts and sums over filtered lists of edges as sums over pairs of cells; bits of the union by induction.")
P("C213", "The PSVTensor node sums the visibilities of all sources",
  "Given positions, brightnesses, uvw coordinates, shapes and pairs of Jones terms for any number of sources, the main value of a PSVTensor node's result is the sum over the sources of the phase, smearing and shape terms times the brightness between all Jones terms. The result has all parameters that some child depends on, in order, with the children's perturbations; children that perturb a parameter by different amounts are refused.",
  "all numbers of sources and of Jones terms, scalar or matrix, all values, all sets of parameters on which elements of children depend", "all numbers and dimensions of children and all dependences",
  ["MEQ/src/TensorFunctionPert.cc: TensorFunctionPert::computeTensorResult", "MEQ/src/TensorFunctionPert.h: getChildValue, IPTR", "MeqNodes/src/PSVTensor.cc: getResultDims, evaluateTensors, IntermediateMatrix"],
  "The table of values is filled injectively (induction over perturbations, planes and children); products by induction over the pairs; sums by induction over sources.")
P("C214", "Perturbed values of the PSVTensor node",
  "For each parameter, the perturbed value of a PSVTensor node's result is the same sum with each child's perturbed value for that parameter, where the child depends on it.",
  "all children and all sets of parameters they depend on, in any order of ids", "all orders of parameters and all sets of elements that depend on them",
  ["MeqNodes/src/PSVTensor.cc: evaluateTensors, fillFromChild, computeShapeTerm", "MEQ/src/TensorFunctionPert.h: getChildValue"],
  "Invariant of the loop over perturbations: the main values kept are right, and so are the products that no earlier perturbation changes; witnesses where a wrong one is used.")
P("C215", "The shapes of sources can be left out",
  "A PSVTensor node works with its three mandatory children (positions, brightnesses, uvw coordinates) alone: sources are then points.",
  "all values of the three children", "all children; the failure is in an unsigned difference of numbers of children",
  ["MeqNodes/src/PSVTensor.cc: PSVTensor::PSVTensor, getResultDims"],
  "Evaluate the check of dimensions for three children; corollary of C213 for a fourth child of one element.")
P("C216", "Messages between the processes of a parallel server",
  "A header and an object sent to another process arrive as they were: the send buffer always holds the message, nothing is written past it, and the receiver gets the same header and the same blocks. A message that was cut short is refused. Whatever bytes arrive, nothing outside the message is read.",
  "all headers, all objects (numbers and sizes of blocks), all sizes of the buffer, all cuts; all sequences of bytes", "all objects, all sizes and all cuts",
  ["MeqMPI/src/MeqMPI.cc: ensureBuffer, marinateMessage, sendMessage, encodeMessage, decodeMessage"],
  "Induction over the blocks for the loop of the decoder, with the blocks already read as a parameter; the same for a prefix; a witness of 12 bytes for the malformed message.")
P("C217", "Calls of remote nodes return what the remote node did",
  "When threads of several processes call nodes of other processes, every call is done at most once, for the caller that made it; it returns at most once; and it returns the result code and object that the remote node produced for this very call (a fail if it threw or gave no result). No reply is ever written to the stack of a thread that is not waiting for it.",
  "all numbers of processes, all sequences of calls, all schedules of communicator, worker and calling threads, all outcomes of nodes including exceptions", "all interleavings of threads and messages",
  ["MeqMPI/src/MeqMPI.cc: runCommThread, postCommand, postReply, procReply, ReplyEndpoint", "MeqMPI/src/MeqMPI_commands.cc: procNodeExecute, MpiExecWorkOrder, procNodeGetState", "MeqMPI/src/MPIProxy.cc: execute, getSyncState"],
  "Invariant: at most one message or work order carries the number of a call, and whoever has it has the address of an endpoint that waits for this number.")
P("C218", "Calls of remote nodes come back, and errors are reported",
  "Every call of a remote node that expects a reply is answered in the end, whatever the remote side does; every error at the remote side is reported once to the user of the main server.",
  "all histories of calls, all schedules, all outcomes", "all interleavings; absence of calls that wait for ever",
  ["MeqMPI/src/MeqMPI.cc: runCommThread, postError, postEvent", "MeqMPI/src/MeqMPI_commands.cc: procEvent, procNodeExecute", "MeqMPI/src/MPIProxy.cc: processCommand"],
  "A waiting call has exactly one message or work order (invariant), so in an idle system nobody waits; a weight of the messages falls with each thread step; witnesses for calls that are dropped.")
P("C219", "Settings of remote nodes",
  "Changes of the state of a remote node arrive in the order in which a process made them, each once; calls to the node that the process makes later see them. The other commands without a reply (clear the cache, breakpoints, publishing, state dependencies) arrive as well.",
  "all histories of calls from all processes, all schedules", "all interleavings of messages of several processes",
  ["MeqMPI/src/MPIProxy.cc: setState, clearCache, setBreakpoint, setPublishingLevel", "MeqMPI/src/MeqMPI_commands.cc: procNodeSetState", "MeqMPI/src/MeqMPI.cc: runCommThread"],
  "Invariant: the settings made are those accepted followed by those on the way, and the requests on the way are numbered in increasing order; witness for an ignored command.")
P("C220", "Commands to the server are answered",
  "Every command sent to the server is executed at most once, with the arguments that were given, and gets exactly one reply, with its name and the number the client gave it (none, if it asked for silence and nothing went wrong). Commands that need not wait are answered at once, also during an execution; the others are executed and answered in the order in which they came. Unknown commands get an error; the queue never gets stuck. No command is left without its reply, also when the server is halted.",
  "all histories of events from clients, all outcomes of commands, all schedules of the main and the execution thread", "all interleavings of two threads and all sequences of commands",
  ["MeqServer/src/MeqServer.cc: executeCommand, execCommandEntry, runExecutionThread, run, halt"],
  "Invariant over all steps: the entries of the queue are those of the unanswered commands in order of arrival, every other event has its replies; witness for halting.")
P("C221", "No event ends the server",
  "Whatever events clients send, the server does not crash and does not end because of an exception; malformed commands get an error.",
  "all histories of events, including malformed ones", "all contents of events",
  ["MeqServer/src/MeqServer.cc: executeCommand, run", "MeqServer/src/meqserver_main.cc: main"],
  "By the invariant of C220 for well-formed events; two witnesses for others.")
P("C222", "The state that clients are told",
  "At every moment the state that clients were told last, by a notification or with a reply, is the state of the server; and the state is executing exactly while a node is executed, constructing while a batch of nodes is made, updating while the forest is cleared.",
  "all histories of events, outcomes and schedules", "all interleavings of two threads",
  ["MeqServer/src/MeqServer.cc: setState, execCommandEntry, nodeExecute, createNodeBatch, clearForest"],
  "Invariant over all steps.")
P("C223", "Requests to abort an execution",
  "When the server has answered that it is aborting the execution, the request stays raised until that execution ends. Requests made before an execution do not abort it.",
  "all histories of events and all schedules", "all interleavings of two threads",
  ["MeqServer/src/MeqServer.cc: executeAbort, nodeExecute, execCommandEntry"],
  "An execution is tracked by the number of its command, which is never run again (C220); witness for a request before the flag is cleared.")
P("C224", "The list of nodes a client holds",
  "A client that sends the number of its list of nodes and is told that this is still good has the list of the nodes there are. One that has no list or another number gets the list and its number.",
  "all sequences of changes to the forest and requests for the list, all schedules", "all interleavings of changes and requests",
  ["MeqServer/src/MeqServer.cc: getNodeList", "MeqServer/src/MeqServer.h: incrementForestSerial"],
  "Invariant: the number counts the changes, and a list with the current number is current or a change is under way; witness for a change between the copy and the number.")
P("C225", "Rows of a measurement set in the tiles that are read",
  "A set with rows that match the selection can be read. Each such row is in exactly one tile, that of its baseline, at its time, with the selected channels of its data and its number in the table; a tile has no other rows. Each tile has its own baseline and number, the times that all tiles with its number have, and at least one row. Timeslots are numbered in order of time.",
  "all tables, selections, ranges of channels and sizes of tiles", "all tables, in particular with missing, repeated and unordered rows",
  ["AppAgent/AppUtils/src/MSInputChannel.cc: openMS, refillStream", "VisCube/src/VisVocabulary.h: ifrNumber"],
  "Induction over the sizes of tiles and the timeslots; witnesses for repeated rows and increments of time.")
P("C226", "Sizes of tiles",
  "The timeslots of the selected rows are cut into tiles that are not empty and have at most the given number of timeslots; with one segment per tile, the steps of time in a tile differ by at most 0.1 from the first; every tile but the last is as large as these limits allow. No memory outside of the list of sizes is written.",
  "all tables, limits for sizes and segments", "all sequences of times",
  ["AppAgent/AppUtils/src/MSInputChannel.cc: openMS"],
  "Invariant of the loop over the rows that exhibits the pieces; witnesses for one row and for rows not in order.")
P("C227", "Range of selected channels",
  "Whatever first and last channel are given, the range that is read lies within the channels; existing channels are taken as given, in either order; negative numbers for the last one count from the end.",
  "all numbers of channels and limits", "all integers",
  ["AppAgent/AppUtils/src/MSInputChannel.cc: fillHeader"],
  "Case analysis; witnesses at the number of channels and before the first one.")
P("C228", "Data written back to a measurement set",
  "Data of tiles goes to the selected channels of the rows they came from; other channels, other columns and other rows do not change. Writing tiles as they were read changes nothing, also when the channels are reversed or some are skipped.",
  "all tables, tiles and ranges of channels", "all tables and tiles",
  ["AppAgent/AppUtils/src/MSOutputChannel.cc: putColumn, doPutTile, doPutHeader", "AppAgent/AppUtils/src/MSInputChannel.cc: refillStream"],
  "Induction over rows of tiles and over channels; the round trip from C225.")
P("C229", "Flags read from and written to a measurement set",
  "A cell is flagged in a tile exactly if a selected bit of BITFLAG is set or FLAG is set and counts. Writing keeps the bits of BITFLAG that the mask keeps and adds the bit for what is flagged in the tile; FLAG is then set exactly where a bit that counts is; columns that are not to be written stay. If FLAG is written, a cell flagged in the tile is flagged in the table.",
  "all masks, bits and flags", "all combinations of masks and options",
  ["AppAgent/AppUtils/src/MSInputChannel.cc: refillStream", "AppAgent/AppUtils/src/MSOutputChannel.cc: doPutTile"],
  "Case analysis on options, bit by bit; witness for bits used but not written.")
P("C230", "Measurement sets written in the order of rows",
  "The output channel that keeps tiles and writes their rows in the order of the table leaves the same table as the one that writes tile by tile: each row gets the data of its tile in the selected channels, and nothing else changes.",
  "all tables, tiles and ranges of channels", "all orders of rows and tiles",
  ["AppAgent/AppUtils/src/MSSeqOutputChannel.cc: doPutHeader, doPutTile, flushOutputTiles, doPutFooter", "AppAgent/AppUtils/src/MSOutputChannel.cc: doPutTile"],
  "Invariant of the map from rows to tiles; refinement of the writer in C228; witness for rows not in order.")
P("C231", "Messages are delivered to channels once",
  "With several channels on one queue, each message that some channel maps is delivered exactly once, to the first channel that maps it, as the event given by that map, with its payload and sender, when that channel asks with a mask that the event matches; messages of the same priority in the order of their arrival. Others who ask meanwhile are told that it is not their turn, and take nothing. Messages that no channel maps are discarded.",
  "all sets of channels, arrivals of messages and histories of requests", "all histories",
  ["AppAgent/AppAgent/src/OctoEventMux.cc: checkQueue, getEvent, addChannel"],
  "Invariant: what is remembered about a message is right while it is in the queue; induction over histories.")
P("C232", "To ask for an event does not take it",
  "To ask whether there is an event tells whether a request for it would succeed, and takes nothing: a request that follows gets the event.",
  "all histories, channels and masks", "all histories",
  ["AppAgent/AppAgent/src/OctoEventMux.cc: hasEvent, checkQueue"],
  "The invariant of C231; witnesses for an event that is lost, and for an old event given in place of a new message.")
P("C233", "Ids of events that are posted and received",
  "An event is posted with the id its channel maps it to, else with the prefix of its category, else with the common prefix; without any of these, or mapped to nothing, it is not posted, and the channel says so when asked. A channel that receives with the same prefix gets the id that was posted.",
  "all maps, prefixes, categories and ids", "all maps and ids",
  ["AppAgent/AppAgent/src/OctoChannel.cc: postEvent, mapPostEvent, isEventBound, mapReceiveEvent"],
  "Case analysis; induction over the prefix for the way back; witness for a disabled event.")
P("C234", "Events from files",
  "Events of a file are given in the order of the file, each once, whatever masks are asked with, and only to requests with a mask that they match.",
  "all files, and sequences of requests with any masks", "all sequences",
  ["AppAgent/AppAgent/src/FileChannel.cc: getEvent, hasEvent, putOnStream"],
  "Induction over requests; witness for the first event after the file was read.")
P("C235", "Histories keep the latest items",
  "A node that collects a history gives the items found in the results of its child since the history was last cleared, in their order: all of them if there is no limit, else the last ones up to the limit. Results without the item leave it as it was.",
  "all histories of results, commands and changes of the limit", "all histories",
  ["MeqNodes/src/HistoryCollect.cc: getResult, processCommand, setStateImpl"],
  "Induction over histories; invariant for a fixed limit.")
P("C236", "Collected data has one entry for each child",
  "A node that collects data gives a list with one entry for each child in their order: the plot record or value of the child if there is just one, else a list of all of them, which is empty if there are none.",
  "all results of children", "all results",
  ["MeqNodes/src/DataCollect.cc: getResult"],
  "Induction over children.")
P("C237", "Joined data keeps labels with their values",
  "A node that joins plot records gives the values of all children one after the other. If any child has labels there is one label for each value, its own or an empty one. Attributes are those of the node, else of the first child that has some. It fails if and only if a child has labels but not one for each value.",
  "all plot records of children", "all records",
  ["MeqNodes/src/DataConcat.cc: getResult", "MeqNodes/src/DataCollect.cc: getResult"],
  "Induction over children for both loops.")
P("C238", "A flag shared by sources of events",
  "A flag is raised if and only if some source has raised it and not cleared it since, and one can wait for a single source: sources do not disturb each other. There are at most 32 sources; calls for other sources are refused and change nothing.",
  "all histories of calls", "all histories and sources",
  ["AppAgent/AppAgent/src/EventFlag.cc: addSource, raise, clear, wait", "AppAgent/AppAgent/src/EventFlag.h: isRaised"],
  "Invariant on the bits of the word, with the sign of 1<<31 in mind; induction over histories.")
P("C239", "Splitting of strings",
  "The pieces of a string that is split at a character give the string when they are joined again, the character is in none of them, and pieces that were joined are found again, empty ones and the one at the end too.",
  "all strings, separators and lists of pieces", "all strings",
  ["TimBase/src/StringUtil.cc: StringUtil::split"],
  "Strong induction over what is left; uniqueness of pieces.")
P("C240", "Nodes for grids give the centres of cells",
  "The node for an axis (time, frequency or any other) has at each cell of the request the centre of that cell along the axis, and zero if the axis has no cells. Its shape fits the cells.",
  "all cells, axes and points", "all grids",
  ["MeqNodes/src/Grid.cc: getResult", "MeqNodes/src/Freq.cc: getResult", "MeqNodes/src/TimeNode.cc: getResult"],
  "Position of a point in an array with one axis that is not degenerate.")
P("C241", "Locations of extremes",
  "The node for the location of the largest (smallest) value gives, for each axis with cells, the centre of a cell where its child has the largest (smallest) of all its values.",
  "all cells and values that fit them", "all values",
  ["MeqNodes/src/MaxLocation.cc: evaluateTensors, getResultDims", "MeqNodes/src/MinLocation.cc: evaluateTensors, getResultDims"],
  "Induction over the points in the order in which they are stored; witness for a value with fewer axes than the cells.")
P("C242", "All sources of a patch are in its image",
  "The node that makes an image of a patch of sources gives a grid on which each source is inside, at each frequency, and puts it in the pixel it is in; it never writes outside of the image.",
  "all sources, frequencies and parameters of the grid", "all positions of sources",
  ["MeqNodes/src/PatchComposer.cc: getResult"],
  "Bounds on truncation over the rationals; witness for sources along an axis.")
P("C243", "Images of patches show their sources",
  "In each channel the image of a patch has in each pixel the flux of the sources in that pixel, and zero elsewhere: the sum over the image is the sum over the sources.",
  "all sources, frequencies and parameters of the grid", "all positions and fluxes",
  ["MeqNodes/src/PatchComposer.cc: getResult"],
  "Induction over the loops over sources and channels; witness for two sources in one pixel.")
P("C244", "Logarithmic axes of polynomials",
  "A polynomial with logarithmic axes takes the logarithm to base 10 of each coordinate relative to the scale of the axis, if that is of a positive number for all coordinates of the grid; else it leaves the grid as it is.",
  "all scales and grids", "all grids",
  ["MEQ/src/PolcLog.cc: axis_function"],
  "Signs of quotients over the real numbers; witness for a grid that is not in order.")
P("C245", "Domains of solving for logarithmic polynomials",
  "When the domain of solving of a polynomial with logarithmic axes is changed, its variable goes from one end of that domain to the other when the coordinate goes from one end of the domain of validity to the other, on both axes.",
  "all scales, domains of solving and domains of validity", "all domains",
  ["MEQ/src/PolcLog.cc: changeSolveDomain, axis_function", "MEQ/src/Polc.cc: changeSolveDomain, do_evaluate"],
  "Field arithmetic with Real.log; witness for an axis with negative coordinates.")

# Formal model of meqtrees-timba: design

## What this is

A machine-checked model, in Lean 4, of parts of `ska-sa/meqtrees-timba` (source in `/repo`, read as text only),
and proofs of the properties listed in `properties.jsonl`.  `MANIFEST.json` maps each property to the theorems.

## Layout

| Folder | Content |
|---|---|
| `lean/Verif/Model/*.lean` | The model: executable definitions that follow the C++ function by function. Each definition cites file and lines. |
| `lean/Verif/Spec/*.lean`  | Small independent specifications (languages, multisets, pointwise formulas) used to state properties. They do not call the model. |
| `lean/Verif/Proof/*.lean` | Helper lemmas. |
| `lean/Verif/Props/*.lean` | The property theorems (`C01_...`), each followed by a non-vacuity example. |
| `seeded/LOG.jsonl`        | Mutation tests: a realistic bug put into a scratch copy of the model, and which theorems stopped proving. |
| `tools/`                  | Generates `properties.jsonl`, `MANIFEST.json` and the per-property section below. |

## Modelling conventions

* C++ objects become Lean structures, methods become total functions `State -> Args -> Outcome`.
* Exceptions (`FailWhen`, `Throw`) are an explicit error outcome.  State changes made before the throw are kept in the model.
* Undefined behaviour (dereferencing `end()`, reading past a vector) is its own outcome (`ub`), never a default value.
* `int`/`size_t` are unbounded `Int`/`Nat` unless the property is about wrap-around; then the limit is a hypothesis or a `BitVec`.
* `double` is modelled by an ordered field (`ℚ` or a type class), so rounding is *not* modelled.  This is said at each definition.
* Debug output, mutex acquisition on single-threaded paths, and memory allocation failure are not modelled.
* Threaded code is modelled as a state machine whose atomic steps are the critical sections of the C++ code; a schedule is any list of steps.

## Trusted base

* Lean 4.33.0 kernel.
* Axioms: only `propext`, `Classical.choice`, `Quot.sound` (checked by `vcheck` and `#print axioms`). No axioms of our own,
  no `sorry`, no `native_decide`, no `bv_decide`.
* The correspondence between the Lean model and the C++ text is by reading; it is not machine-checked.
  The citations on each definition are there so that a reader can check it.
* The C++ compiler, standard library, Blitz++, AIPS++/casacore, GDBM, the OS scheduler and sockets are not modelled.

## Disagreements between code and intended property

See the section "Findings" below; where the code violates the property a user relies on, the negation is proved with a concrete
witness, and the part that does hold is proved under the suffix `_partial`.

## What is modelled and what is not

| Module | Code |
|---|---|
| `Hiid`, `Names` | `DMI/src/HIID.cc, AtomicID.cc, AID registry`: matching, subsets, ordering, text and binary form, the registry |
| `CRef`, `BlockSet` | `DMI/src/CountedRefBase.cc, CountedRef.h, BlockSet.cc`: attach, copy, privatize, lock, transfer, queue of blocks |
| `Record`, `DList`, `Serial` | `DMI/src/Record.cc, List.cc, DynamicTypeManager/BObj headers`: fields, merging, container access, blocks |
| `NumArray` | `DMI/src/NumArray.cc, NumArray.h`: access by identifier, blocks, sharing of data |
| `Packer`, `Bytes`, `Boio`, `Timestamp` | `DMI/src/Packer.h, BOIO.cc, Timestamp.cc` |
| `Message`, `Subscriptions`, `WPQueue`, `Dispatcher`, `Events` | `OCTOPUSSY/src/Message.cc, Subscriptions.cc, WPInterface.cc, Dispatcher.cc` |
| `GatewayWire`, `GatewayRoute` | `OCTOPUSSY/src/MTGatewayWP.cc, MTGatewayWP2.cc`: packets and reader threads, routing tables, forwarding between processes, scopes |
| `Tensor` | `MeqNodes/src/Composer.cc, Selector.cc, Paster.cc, MatrixMultiply.cc`, `MEQ/src/Result.cc`: composing, selecting, pasting, products and dimensions of tensor results. Cells, shapes and flags are left out; extents are not negative |
| `MTQueue` | `AppAgent/AppAgent/src/MTQueueChannel.cc`: the two threads, their queues, the list of errors, closing. A transition system with one step per piece of code between two moments where the lock may change hands; one session, the bits of the event flag left out, the channel behind changes state only while it is called |
| `VisMux` | `MeqServer/src/VisDataMux.cc`, `VisCube/src/VisVocabulary.h` (baseline numbers): tables of nodes, headers, tiles, footers, snippets and requests, children, output, errors. What nodes, children, Python and the output do is an oracle that may depend on all that happened before; the abort flag, status events and all header fields but the number of stations are left out |
| `VisNodes` | `MeqServer/src/Spigot.cc`, `Sink.cc`: values and flags of columns with correlations and of the UVW column, the queue of spigots, mapping of planes to correlations, what sinks write. Conversion between float and double, columns without correlations, and flags of more than two axes are left out |
| `Tiling` | `MeqNodes/src/Solver.cc`, `.h`: the class `Tiling` (`init`, `advance`) with the cell counter of `MEQ/src/Vells.h`. Negative tile sizes are left out |
| `Solver` | `MeqNodes/src/Solver.cc`: `populateSpidMap`, `fillEquations`, `fillEqVectors`, `fillRider`; spids from `Parm.cc`, `Funklet.cc` (`makeSolvable`) and `Node.cc` (`discoverSpids`); the receiving end in `ComposedPolc.cc` (`do_update`). Axes up to the last defined one are listed; the least squares solution (casacore) is an arbitrary function; real numbers are a type parameter |
| `SolveLoop` | `MeqNodes/src/Solver.cc`: `getResult` (the iterations, flags, requests, result) and `Subsolver::solve`. Replies, fits and flags come from outside, arbitrary; the fit itself is an arbitrary function; of the result only rows, iterations and `converged` are kept |
| `SolveWorkers` | `MeqNodes/src/Solver.cc`: `processSolversLoop`, `activateSubsolverWorkers`, `workerLoop`, start and stop of the threads, with mutexes and condition variables with spurious wake-ups. Table flushing is left out |
| `Composed` | `MeqNodes/src/Parm.cc`: `GetTiledDomains`, `checkTiledFunklet`, `initTiledFunklet`; `MEQ/src/ComposedPolc.cc`, `.h`: order, shape of axes, `do_evaluate`, copies; clipping of `Polc::do_evaluate`. Two axes, values over ℚ without rounding; perturbed values and forced shapes are left out |
| `Parm` | `MeqNodes/src/Parm.cc`: `findRelevantFunklet`, `initFunklet`, `initSolvable`, `discoverSpids`, `getResult`, `clearFunklets`, `processCommand`; `ParmDBInterface.cc` without PARMDB; rows of one parameter in `FastParmTable`. Any type of coefficients; updates and change of the solve domain are parameters of the model. Domains have two axes and are compared exactly; tiles, splines, forced shapes, `ignore_time`, funklets with a domain given through the state, and saving funklets without a domain are left out |
| `FlagNodes` | `MEQ/src/Vells.cc` (`mergeFlags`), `Vells.h` (`whereEq`), `Function.cc` (`evaluateFlags`), `TensorFunction.cc` (`evaluateTensorFlags`); `MeqNodes/src/MergeFlags.cc`, `ZeroFlagger.cc`, `ReductionFunction.cc` (flags), `ReplaceFlaggedValues.cc`, `Stripper.cc`. Flag words have 32 bits; values over ℚ (no NaN); sharing of arrays between references, fails and cells are left out; the slices of a reduction along axes are taken as given |
| `ReqNodes` | `MeqNodes/src/ReqMux.cc`, `ReqSeq.cc`, with the part of `MEQ/src/Node.cc` (`execute`) that combines their codes. Results are an arbitrary type; no aborts, waits, riders, stepchildren; the cache of a sequencer under the smart policy with one parent and one request type |
| `Condeq` | `MeqNodes/src/Condeq.cc`: `getResult`, `calcDerivative`. Values at one grid point, rational; cells and solver commands left out |
| `MatNodes` | `MEQ/src/TensorFunction.cc`: `computeTensorResult`; `MeqNodes/src/MatrixInvert22.cc`, `Transpose.cc`, `Stokes.cc`: `getResult`. Values in a field; flags and cells left out |
| `Riders` | `MEQ/src/Rider.cc`, `Node_commands.cc`: building riders, who performs which commands. What a command does is a parameter |
| `NodeLock` | `MEQ/src/Node.cc`: the mutexes, the condition variable and the executing flag of `execute`, `clearCache`, `holdCache`, `setState`, `getSyncState`, `setExecState` at a stop; `Node.h`: `exitExecute`; any number of threads at one node, spurious wake-ups. A recursive mutex is one holder; what a thread does while it holds one is one step. Also the read-modify-write of the status in `setBreakpoint` and `clearCache`. |
| `Execute` | `MEQ/src/Node.cc`: `execute` with `cacheResult`'s code, `exitAbort`, `exitExecute`, given the outcomes (code and result, or an exception) of `getCachedResult`, `processRequestRider`, `pollChildren`, `checkChildCells`, `getResult`, `discoverSpids`, `cacheResult`. Breakpoints, timers and debugging are left out. |
| `Threads` | `TimBase/src/Thread`: `Mutex.h` (`Mutex::Lock`), `Condition.h` (the timed `wait`), `SmartLock.cc`. Recursive mutexes as counts; `pthread` functions by their documented behaviour. `SmartLock` is compiled but used nowhere in the repository. |
| `ChildCells` | `MEQ/src/Node.cc`: `checkChildCells`, `discoverSpids` (of ordinary nodes; parameters have their own). An axis of cells is its number of cells and its domain. |
| `AsyncPoll` | `MEQ/src/NodeNursery.cc`: `startAsyncPoll`, `awaitChildResult`, `backgroundPoll`, `finishPoll`, `abortPoll` and what they call, as steps of the parent and any number of workers; only this node's work orders. That the forest's abort flag ends `awaitChildResult` at once is left out. |
| `WSum` | `MeqNodes/src/WSum.cc`, `WMean.cc`, with `Function::getResult` reduced to its use of children's results. One cell, exact arithmetic. |
| `AxisMap` | `MEQ/src/Axis.cc`, `Axis.h` (the global map of names), `MEQ/src/Domain.cc`: `defineAxis`, `validateContent`. Locking and the other contents of axis records are left out; ranges are exact. |
| `GwClient` | `OCTOPUSSY/src/GWClientWP.cc` (without `stop` and the parsing of `gwpeer`), the contents of `GWServerWP`'s advertisements. What `connect` returns comes from outside; times are milliseconds. |
| `PyConv` | `OCTOPython/src/DataConv.cc` both ways for Python 3, the type map of `dmi.py`, `put` of `DMI/src/Vec.cc` as used there. Floating point numbers are names of values; `validateContent` is left out; keys of records are converted by two given functions. |
| `VTile` | `VisCube/src/ColumnarTableTile.cc`, `.h`, `VTile.cc`, `.h`, `TableFormat.cc`: layout, sharing and copying of blocks, `init`, copies, `addRows`, `copy`, `changeFormat`, `applyFormat`, `setTileId`, `wcolumn`, arrays, `toBlock`/`fromBlock`. Left out: locks, iterators, `ncorr`/`nfreq`, a tile copied onto itself. |
| `Config` | `DMI/src/ConfigMgr.cc`, `OCTOPUSSY/src/OctopussyConfig.cc`: all but debug output and the default directory. Left out: failures while reading or writing. |
| `NodeInit` | `MEQ/src/Node.cc` 46-136, `MEQ/src/Node_init.cc`, `MEQ/src/NodeNursery.cc` 48-74, `MEQ/src/Forest.cc` `create`, `initAll`, `get`, `MeqServer/src/MeqServer.cc` `createNodeBatch`: children, stepchildren, parents, indices, names, errors. Left out: the classes' own settings, `checkChildren`, symbolic dependencies. |
| `Symdeps` | `MEQ/src/SymdepMap.cc`, `SymdepMap.h`, the parts of `MEQ/src/Node.cc` and `Node_init.cc` on dependencies, `set_node_active_symdeps`. Left out: classes that change their dependencies themselves later on; empty lists in records. |
| `DVec` | `DMI/src/Vec.cc`, `Vec.h`. Left out: bytes of values and of objects' blocks (`Packer`, `Bytes`), sharing of objects by reference (`CRef`), conversions on assignment, classes derived from `Vec`, locks, moving of elements between blocks and vectors by pointers. |
| `ModRes` | `MeqNodes/src/ModRes.cc`. Left out: rounding (coordinates are rational), request ids (`RequestId`), segments of cells (`Cells`). |
| `Resample` | `MeqNodes/src/Resampler.cc`: the binary search and `Integrator` (mode 2). Left out: the `Interpolator` (mode 1), kept axes, rounding (coordinates and values are rational), flags of other shapes than the values, perturbed values (which the code does not resample). |
| `Psv` | `MEQ/src/TensorFunctionPert.{h,cc}`, `MeqNodes/src/PSVTensor.cc` (`getResultDims`, `evaluateTensors`, `computeShapeTerm`). Values are of any commutative ring, with the exponent, the smearing term and the shape term as functions (the arithmetic within `computeExponent`, `computeSmearingTerm` and `computeShapeTerm` is left out); one set of perturbations; flags, cells and shapes of values are left out. |
| `MpiWire` | `MeqMPI/src/MeqMPI.cc`: `ensureBuffer`, `marinateMessage`, `sendMessage`, `encodeMessage`, `decodeMessage`. Building the object from its blocks is in `BlockSet` and others; MPI itself is left out. |
| `Mpi` | `MeqMPI/src/MeqMPI.cc` (`runCommThread`, posting, `ReplyEndpoint`), `MeqMPI_commands.cc`, `MPIProxy.cc`. Any number of processes; MPI delivers in order and loses nothing; probe and receive are one step; initialisation, halting, broadcasts and the proxy's result cache are left out. What nodes do is part of a step. |
| `Server` | `MeqServer/src/MeqServer.cc`: constructor (tables of commands), `executeCommand`, `execCommandEntry`, `runExecutionThread`, `run`, `halt`, `executeAbort`, the state changes of `nodeExecute`, `createNodeBatch` and `clearForest`, `getNodeList` with the forest serial. Two threads; what commands do to the forest is part of a step; the debugger, wildcards in identifiers and commands from Python are left out. |
| `MsChan` | `AppAgent/AppUtils/src/MSInputChannel.cc`: range of channels (`fillHeader`), selection of rows and sizes of tiles (`openMS`), tiles and flags (`refillStream`); `MSOutputChannel.cc`: `putColumn`, `doPutTile`; order of `ifrNumber` in `VisVocabulary.h`. casacore (`Table::sort`, `TableIterator`, `putSlice`) is taken by its documentation; times are rational; UVW, weights, intervals, tapering, inverted phases and predicted data are left out. |
| `MsSeq` | `AppAgent/AppUtils/src/MSSeqOutputChannel.cc`: `doPutHeader`, `doPutTile`, `flushOutputTiles`, `doPutFooter`, for one data column; flags are left out. |
| `EventMux` | `AppAgent/AppAgent/src/OctoEventMux.cc` (`checkQueue`, `getEvent`, `hasEvent`), `OctoChannel.cc` (`mapReceiveEvent`, `mapPostEvent`, `isEventBound`, `postEvent`), `FileChannel.cc`. Waiting is left out: a call is what happens when it does not wait; scopes, priorities and recordings are left out; messages have addresses, which may be used again. |
| `Collect` | `MeqNodes/src/HistoryCollect.cc`, `DataCollect.cc`, `DataConcat.cc` (`getResult`, commands and state), with records and values left abstract; `AppAgent/AppAgent/src/EventFlag.cc`: `addSource`, `raise`, `clear` and the test of `wait`, one call at a time. |
| `Locate` | `TimBase/src/StringUtil.cc`: `split`, with `find` and `substr` of the standard library; `MeqNodes/src/Grid.cc`, `Freq.cc`, `TimeNode.cc`: `getResult`; `MaxLocation.cc`, `MinLocation.cc`: `evaluateTensors`, with rational numbers, and `blitz::maxIndex` as a loop over the array that keeps the first of the best ones. |
| `Patch` | `MeqNodes/src/PatchComposer.cc`: `getResult` from the direction cosines on, with rational numbers, for one of the Stokes parameters. How directions and fluxes are read from the children is left out. |
| `PolcLog` | `MEQ/src/PolcLog.cc`: `axis_function`, `changeSolveDomain` for a domain, with real numbers, up to the call of `transformCoeff` (see `Polc`). |
| `RequestId`, `NodeCache`, `Forest`, `Breakpoint`, `Nursery`, `MTPool` | `MEQ/src/RequestId.cc, SymdepMap.cc, Node.cc, Forest.cc, NodeNursery.cc, MTPool.cc` |
| `Vells`, `VellsReduce`, `Slicer`, `Cells`, `Function`, `VellSet`, `Polc`, `ParmTable` | `MEQ/src/Vells.cc, VellsSlicer.h, Domain.cc, Cells.cc, Function.cc, VellSet.cc, Polc.cc, FastParmTable.cc` |

Further modules are named in the per-property plan.  Not modelled: how gateways connect, sockets' own behaviour, signal delivery by the
OS, AppAgent but its channels of events, MeqServer but its command loop, stream node, spigots and sinks, the Python layers, image I/O, casacore, most of MeqNodes, numerical accuracy (all
numbers are rational), memory exhaustion.  Threads: only where a property says so (C36, C54, C70, C90-C92, C103-C107); elsewhere one thread is assumed.

## Findings

Where the code does not do what the property says.  "Proved" names the theorem with the witness; the others were found by reading
and lie outside the model.

*DMI*

* Ids whose names differ only in case collide in the registry (`C07_case_collision`).
* `privatize` with deep copying on a sole reference, and making an attached reference read-only, leak targets (C08).
* Transferring out of a locked reference raises an error after the destination has been detached (C10).
* `BlockSet::flushToCursor` does not update the size (C11); `pushCopy` of a set onto itself does not end.
* `Record::removeField` returns an empty reference for attached fields (C61); access by `#n` uses an uninitialised iterator (C62); a
  failing merge is applied in part and takes over the other record's protection flag; protection is not serialised.
* `List`: negative indices are off by one, -1 and an empty list are out of bounds (C14); appending a list to itself does not end (C63).
* `fromBlock` of containers reads out of bounds for blocks under 4 bytes or negative id sizes (C64).
* `SeqPacker`/`MapPacker` write the count before checking the size; `MapPacker::unpack` has `sz0 += s1` (Packer.h:561) and does not
  clear the map; `packSize` has a `?:` precedence error; `ArrayPacker` copies from the wrong pointer (Packer.h:645).
* `BOIO`: objects without blocks make `write` fail after the header has been written (C67); `rewind` after the end of file keeps a
  stale header (C66); a truncated header is taken for the end of the file (C19).
* `Timestamp(long,long)` does not normalise (C16); `toString("s")` prints milliseconds.
* `NumArray`: ends of ranges are not checked against the extent, an open end after a start selects one position, the last position is
  lost when the step does not divide, trailing axes that are not named are dropped (C87); `fromBlock` checks two words too few and
  accepts negative extents (C88); slices are copied, sent and made writable as if they began at the start of their block (C89);
  `cloneOther` leaves the data pointer unset when the types differ (NumArray.cc:239-245).
* `AidEmpty` prints as `_` and is not read back (C60).

*OCTOPUSSY*

* `Message::fromBlock`: headers under 8 bytes and sizes that cancel out are read out of bounds (C68).
* `publish(id,...)` passes the scope as flags (WPInterface.cc:1120-1124); `dequeue` by id starts with `erased_head` true; a worker
  attached twice gets two addresses; `removeInput(fd<0)` removes the first input only (C26).

*MEQ*

* `RequestId`: only 16 components; a negative mask does not end; counters per dependency collide when masks share bits (C69).
* Node cache: a failing rider is cached with the type dependency only; a child's `RES_IGNORE_TYPE` removes the parent's own type
  dependency (C31); `pollChildren` compares `RES_MISSING` with the fail policy (Node.cc:905).
* `Forest::get`, `getRef` and `remove` accept an index equal to the size (C32).
* Breakpoints: one hit clears all single-shot breakpoints of the node (C33).
* `setChildPollOrder` is applied in part when it fails (C34); unpolled children keep stale return codes; the multithreaded poll tests
  `isChildEnabled(i)` for another child (NodeNursery.cc:645) and can hang under the abandon policy (C70).
* `MTPool::join` may shrink or overrun its table (`C36_join_refuted`); `clearQueue` leaks orders; more than 128 threads move the
  workers while threads hold pointers to them.
* `Vells::isCompatible` has its rank check commented out (C71); sums and products count elements more than once when flags vary along
  axes where the data are constant (C39); `max` starts from the smallest *positive* number (C72); `posdiff` uses `M_2_PI`, which is
  2/pi (Vells.cc:1212-1216); adding a null scalar keeps the flags which the general path drops; `VellsSlicer` with an axis
  named twice writes out of bounds (`C40_duplicate`).
* `Domain::envelope` of domains with different axes is not a superset (C73); a slow drift of cell sizes is one segment (C42);
  `INTEGRATE` by a non-divisor drops cells (C43); resampling by nothing changes the rank (C75); `Cells::compare` ignores grids and is
  inverted for empty cells (C44); `SET_NCELLS` of 0 divides by zero.
* `Function`: children with different numbers of perturbation sets are read out of bounds (C77); a plane that fails because of a
  child's plane is counted as missing (C78).
* `VellSet`: stale shape after a value is replaced (C49); `addFail` drops earlier failures (C50); `clear` leaves a dangling pointer to
  the weights (C79).
* `Polc`: making a polynomial solvable zeroes coefficients outside the default triangle (C83); `changeSolveDomain` reads a missing
  axis (C81); a new scale of 0 stops halfway (`C47_zero_scale`); `powersy[10]` overflows (C80); `setCoeffShape` misplaces coefficients
  when the number of axes changes (C82); clipping of the grid uses the wrong index and reads past the end (Polc.cc:186-193).
* `FastParmTable`: constant polynomials lose perturbation, weight and class (`C48_refuted`); the tolerance is not transitive, so an old
  funklet may stay (`C48_replaced_refuted`); part of an entry left by a crash misaligns all later ones (`C84_refuted`); names with a
  zero byte are cut (C85); a record of 8 bytes is always a constant (`C86_refuted`).

* Gateways, on the wire: a header that begins with 'o' and is not a data header makes the reader loop for ever, also for the packet types
  PING, ACK, RETRY and ABORT that the protocol has (`C91_hang`); blocks left by a message that cannot be unpacked make the
  next one fail (`C92_refuted`); a block of more than 512 MB is sent but never accepted (`C90_limit`); `processInitMessage` adds sizes from
  the message to a pointer before checking them, and computes the header's size as an `int` (MTGatewayWP.cc:515-530).
* Gateways, locks (by reading): `Thread::Mutex::Lock(remote_subs_mutex);` makes an unnamed object and does not lock; with two workers the second may
  transmit before the first has sent the first message, and messages may be written in another order than they were queued.
* Routing: a destination with '*' is forwarded though nobody gets it (`C93_refuted`); `MsgBye` is published before the WP's `stop()`, and a
  subscription changed there leaves an entry for a WP that is gone (`C94_refuted`); a message to class '?' is also queued for gateways, which ignore
  the hop count, and goes round for ever (`C95_refuted`, `C97_refuted`); `publish(id,flags,scope)` ignores its scope, and so do the calls
  `publish(mref,scope)` (`C96_refuted`).

* C98: in tensor mode a Composer compares the number of failing (missing) planes of its result, in which scalars count once per
  plane, with the number of planes of its children. `[tensor of 2 good planes, failed scalar, failed scalar]` is reported as
  RES_FAIL, `[good scalar, empty result]` as RES_MISSING. With dimensions given, more planes than these make a result that cannot
  be sent.
* C99, C100: the offsets of a selection are right exactly when all sliced axes but the last have extent 1 (`C99_iff`): the walk
  does not go back to the start of an inner axis. In a 2x2x3 tensor `[0,-1,-1]` returns planes 0,1,2,6,7,8; pasting a 2x2 matrix
  into a 2x2 matrix with `[-1,-1]` writes planes 0,1,4,5 and makes the result grow.
* C101: a null scalar times a tensor is a scalar, without the failures of the tensor.
* C102: `Result(Dims(1,1))` has rank 0 until it is sent, and rank 2 afterwards.
* C103: `MTQueueChannel::close` sets the state CLOSED before it flushes; the worker then closes the channel behind and throws the
  queued events away (`C103_refuted`). A `flush()` before `close()` helps.
* C107: `getEvent(WAIT)` does not test in its loop whether the channel behind has closed, and waits for ever
  (`C107_wait_hangs`). With an exception on the list and the channel closed, the worker's `continue` (MTQueueChannel.cc:120) goes
  back to the same loop with the lock held, so that `close` never returns (`C107_close_hangs`). The worker clears the output
  queue without a broadcast: `close` with events in both queues (`C107_close_stuck`) and `postEvent` on a full queue
  (`C107_post_stuck`) sleep with nobody to wake them. `getEvent(BLOCK)` does not wait at all; the second constructor leaves
  `aborted_` unset; `flush` returns while the last event is still being posted.
* C108: `fillCells` looks for the first and the last row with a time without a bound: a tile whose rows all have time 0 makes it read
  outside the array (`C108_no_ub_refuted`). `deliverTile` checks `did > size` where `>=` is meant; harmless, since no baseline has
  that number (`C108_data_ids`); a negative antenna passes the check (`C108_negative_antenna`).
* C109: if no cells can be made of the first tile of a snippet, the snippet's tiles are given to the nodes with the request of the
  snippet before, and its sinks run under it (`C109_requests_refuted`). All tiles of a snippet get the rows of its first tile
  (`C109_rows_refuted`).
* C110: `deliverHeader` resizes `handlers_` to the number of stations: a data set with fewer stations drops the nodes of the other
  baselines, and no later one brings them back (`C110_refuted`).
* C111: the footer is posted even if no header was (`C111_form_refuted`); after a header that lacks a field, tiles are written
  without a header (`C111_bad_header`).
* C112: with `max_tiles`, `deliverTile` returns 0 after ending the last snippet, which loses its errors; the output is closed as if all
  had gone well (`C112_refuted`).
* C113: a data set cut short by `max_tiles` ends for the nodes without a footer (`C113_refuted`).
* C114: with `flag_mask` 0, `Spigot` makes a flag array of one frequency and assigns the row flags to its first row: only the first time
  is flagged (`C114_refuted`). With both masks 0 missing rows are still flagged, against the documentation (`C114_off_refuted`).
* C115: a request for which a spigot has nothing empties its queue (`C115_refuted`); of several tiles for one request only the first is
  ever used (`C115_tiles_refuted`), while the sink writes to the last.
* C116: if the rows are not the whole tile, a sink drops the flags, since it compares their shape with that of the whole tile
  (`C116_flags_refuted`); a zero plane leaves the flags (`C116_flags_kept`). A scalar result on two-correlation data is written to the
  first correlation, the second becomes 0 (`C116_two_refuted`). Zero planes on a column of another type are written as complex numbers
  past the end of the column (`C116_other_ub`).
* C119: with an axis that is not defined below one that is, and parameters of different tile sizes, `populateSpidMap` divides by zero
  (Solver.cc:437, `C119_refuted`).
* C120: `DimVector::operator<` is "nowhere larger", which is not the order `std::map` needs. Tile sizes neither of which is nowhere larger
  (one parameter tiled in time, one in frequency) are taken for the same key, and the second parameter gets the first one's tiles
  (`C120_refuted`).
* C122: `fillEqVectors` uses the number of the *solver* tile as index in the parameter's unknowns (`ssuki[itile]`; the parameter's own
  tiling is carried along but not used). With parameters of different tile sizes equations are put on the wrong tile's unknown
  (`C122_refuted`).
* C123: updates are sent solver tile by solver tile, but a parameter takes them in the order of its own tiles; with two tiled axes these
  differ (`C123_refuted`).
* C124: spids are 256 times the node index plus a counter; with more than 256 coefficients they run into those of the next node, whose
  entries are then dropped when the maps are merged (`C124_refuted`).
* C126: an interrupt while an evaluation gives no equations: the solver leaves the loop (Solver.cc:1080) with the request of the last update
  still set, and sends it again (1205-1216), so parameters move twice (`C126_refuted`). Without `last_update`, the default, the last
  solution is never applied (`C126_without_last`).
* C127: a subsolver without equations counts as converged, so with data for one tile of five and a quota of 0.8 the result says converged
  though no fit has (`C127_refuted`).
* C128: with the abort flag raised during the last fits `getResult` returns 0 and an empty result (1168-1169, `C128_refuted`).
* C129: `child_fails` is counted but not used: children that fail in iterations are ignored, even if all do (1037, `C129_refuted`).
* C130: the command to save funklets is put in the request for the last update, which is not sent unless `last_update` is set (1115,
  1205, `C130_refuted`), and is lost on an interrupt just after the rider was filled (`C130_interrupt_not_saved`).
* C135: the search for the last cell of a funklet stops at cell 0 without looking at it (`while(k>0 ...)`, ComposedPolc.cc:278), so a
  funklet that ends before the grid is still written to its first cell (`C135_refuted`). If all parts have the same range along an axis,
  only the first centre is looked at: one just outside gives the default everywhere (example after `C135_refuted`). A part that is not
  constant and has no range for an axis is clipped to [0,0] there, because undefined ranges are zero (Domain.cc:38-43, Polc.cc:186).
* C137: the copy constructor of a composed funklet sets the default to 0 instead of copying it (ComposedPolc.cc:48), and it is not part of
  the record, so a copy has other values where no part is for a cell (`C137_refuted`).
* C138: a funklet is kept for any new domain inside its own (Parm.cc:441-461), so an entry of the table for just that domain is not looked
  at (`C138_refuted`).
* C140: every command notes its request, and a command of the same request is then skipped (Parm.cc:831-843), so of several commands in
  one request only the first has an effect (`C140_refuted`).
* C141: of several entries that overlap, a solvable parameter takes the first, not the one that fits (ParmDBInterface.cc:383-386, where a
  comment says best fitting), so it may not get back what it saved (`C141_refuted`).
* C142: the flag of convergence is only ever raised (Parm.cc:848-849), so after one solution has converged all later ones are saved
  (`C142_refuted`); `use_previous` then also takes them.
* C143: a funklet still being solved for keeps its domain when a domain inside it is solved for next (Parm.cc:442-461, 580), so the
  solution for the smaller domain overwrites the entry for the larger one (`C143_refuted`).
* C145: a flag merger with a single child and a mask replaces all flags by the masked ones (MergeFlags.cc:79-90), so bits outside the mask
  are lost (`C145_refuted`); with several children they are kept.
* C146: the zero flagger replaces the flags of an element (ZeroFlagger.cc:131-134), while its documentation says the bit is ORed
  (ZeroFlagger.h:46) (`C146_refuted`); `force_output` clears the flags of an element in which nothing is flagged.
* C147: `if( !(*pflag)&mask )` (ReductionFunction.cc:83) is read as `(!(*pflag))&mask`: with a mask without bit 0 every reduction of data
  that have flags is flagged, even if no point is (`C147_refuted`), and bits outside the mask count (`C147_refuted_outside`).
* C148: bit `1<<i` of an int stands for child i (ReductionFunction.cc:179,189), which overflows from 31 children on (`C148_refuted`).
  A child that is missing counts as not flagged, although the reduction itself ignores it.
* C149: flags with more axes than the value to be replaced give an exception (Vells.h:505-528), although the value stands for the same
  number at all points (`C149_refuted`).
* C150: the stripper builds a new element from the main value only (Stripper.cc:55), so data flags and weights go with the derivatives
  (`C150_refuted`).
* C151: a multiplexer whose chosen child fails returns FAIL from `pollChildren` (ReqMux.cc:69) with an invalid result reference, and
  `execute` returns at once (Node.cc:1041-1047), so the failure is lost and the parent, which dereferences the result of a failed child
  (NodeNursery.cc:562-564), gets an exception instead (`C151_refuted`); in a worker thread nothing catches it.
* C154: for a request without cells a sequencer drops the codes of its children: `pollChildren` returns 0 (ReqSeq.cc:154) and `getResult`,
  which returns the accumulated code, is not called. A failure of the chosen child goes unreported (`C154_refuted`).
* C155: what is cached then names no dependency of the children, so the next request with cells of the same type is answered with the
  empty result (`C155_refuted`).
* C156: a sequencer executes disabled children (ReqSeq.cc:97) (`C156_refuted`).
* C160: `Condeq::getResult` never looks whether an element of a child is a failure (Condeq.cc:147), only whether it has a value, so a failed
  element of a tensor silently becomes an element without a value, which the solver skips (`C160_refuted`).
* C161: the first child's result is dereferenced before it is known to be there (Condeq.cc:105): a missing one is an exception, although
  the comment at line 122 says MISSING is returned for children 0 and 1 (`C161_refuted`).
* C164: `Transpose` drops the last but one axis if its extent is 1, also in a tensor of matrices (Transpose.cc:118-123): 2x1x3 becomes 2x3,
  not 2x3x1, and transposing again gives 3x2 (`C164_refuted`).
* C165: `Stokes` takes U and V without values as zero, but throws if Q has no value and U has one (Stokes.cc:90-95) (`C165_refuted`). It
  passes on neither derivatives nor flags of its child.
* C166: an entry of `command_by_list` whose list of names is empty is for every node (Node_commands.cc:175-179).  `MeqClasses.py:142-145`
  makes such an entry from an empty list of solvables: all parameters become solvable (`C166_refuted`).
* C167: `Rider::getCmdRec_ByList` stores its vector in `command_by_nodeindex` (Rider.cc:113): every node of the group throws
  (`C167_refuted`, `C167_list_throws`).
* C170: the status word is changed under the state mutex by `setBreakpoint` and under the mutex of the cache by `clearCache`; overlapping calls lose a
  breakpoint flag, or bring the flag for a cached result back (`C170_refuted`).
* C171: `execute` is declared `throw()`; `FailWhen` before the `try` (Node.cc:951) and `throw;` after a failed `cacheResult` in the handler (1191) end the process
  (`C171_refuted`). The result made by `exitAbort` (Node.h:826) is a local variable that nobody gets.
* C172: an abort at the start sets `CS_RES_EMPTY` on top of the old result bits: after a failure (0x50) that gives 0x70, no status at all (`C172_refuted`). Missing data found by
  `getResult` have status ok (`C172_missing_is_ok`).
* C173: the message made for a failed `getResult` (Node.cc:1113-1133) is never posted: `postError` is reached after exceptions only (`C173_refuted`). It is also made, as
  "unknown failure", for successes.
* `Node::setExecState` (by reading): the test for a stop in another thread (Node.cc:1285) can only be reached with the abort flag up and then requires it to be down.
- **`Mutex::Lock` with `TRY`** (C174, `C174_refuted`): `Mutex.h:225` tests `pthread_mutex_trylock(...) < 0`, but the function returns a
  positive `EBUSY`, so an object that failed to lock says it is locked. (By reading: assigning from an empty `Lock`, `Mutex.h:192-198`,
  dereferences a null pointer.)
- **Timed waits** (C175, `C175_refuted`): `Condition.h:141` adds the nanoseconds without carrying into the seconds. If they come to a second or
  more, `pthread_cond_timedwait` refuses with `EINVAL` and the wait ends at once. `receive(timeout)` and `await` of the Python proxy
  (`ProxyWPObject.cc:253,338`) then return without having waited.
- **`SmartLock` forgets sleepers** (C177, `C177_refuted`, `C177_refuted_readers`): `runlock` signals only when no reader is left, so a reader that waits to
  upgrade is not woken when it becomes the only one; and `wunlock` wakes one thread, so of two waiting readers one sleeps on though the
  lock is free for it.
- **Cells of children** (C178, `C178_refuted`): `Node.cc:796` skips a child whose cells are the same object as the cells so far, without merging its
  shape into the shape so far. If the first child varies in time only, the second, with the same cells, in time and frequency, and the
  third over other frequencies, the third is accepted and its frequencies are attached to the result.
- **Stale results after an abort** (C180, `C180_stale`, `C180_refuted`): `mt_abortPoll` clears the queue and lowers `polling_`, but does not wait for workers that
  are executing children. The next `startAsyncPoll` raises `polling_` again, and when such a worker ends, its result, for the aborted request,
  is counted and handed out as one of the new poll (`mt_receiveAsyncChildResult` looks at `polling_` only). One of the new poll's children is then
  never handed out.
- **`finishPoll` does not wait after an abort** (C181, `C181_unwaited`, `C181_refuted`): `abandon_` is set by `mt_abortPoll` and taken down only by `syncPoll`
  (line 494). Step-children are never polled synchronously, so that after one abort `mt_waitForEndOfPoll` returns at once for good: `execute` returns, and
  `holdCache` is called, while step-children are still executing. In the same function's poll, line 645 tests child `i` in place of `child_poll_order_[i]`
  (`C181_orders_refuted`), which no harm comes from as long as the poll order of step-children cannot be set.
- **Zero weights** (C182, C183, `C182_fails`, `C183_fails`): `WSum::setStateImpl` disables children with weight zero, and those for which no weight is given;
  `Function::getResult` then uses their results, which were never asked for, and throws. Such a node fails at each request.
- **Names of axes that outlive a new map** (C184, `C184_stale`, `C184_refuted`): `Axis::defineAxis` takes neither the axis's old name out of `_num_map`
  nor the new name from another axis, and `setAxisMap`'s "fill the rest with numbers" does nothing, since `defineAxis` ignores a number that is the
  axis's own. After `setAxisMap(["Freq"])` axes 0 and 1 are both called `Freq`, `TIME` and `FREQ` are both 0.
- **A domain with default names is misread** (C185, `C185_swapped`, `C185_halfway`, `C185_refuted`): the names of axes are attached to a domain only if they are
  not the default ones; a receiver whose map is another takes time for frequency. A map that is refused half-way has changed names but still counts as the
  default one. Receiving a domain with a map changes the receiver's map for good.
- **Axis numbers in domain records** (C186, `C186_refuted`): a field called by a number is used as index into `range_` and `defined_` without being
  compared to `MaxAxis`.
- **A connection given up is used after it is freed** (C188, `C188_given_up`, `C188_refuted`): `GWClientWP::tryConnect` calls `removeConnection` for a connection
  that has been failing for thirty seconds; `timeout` and `activate` go on with the iterator to it. `removeConnection` is given a reference to
  the host's name in the very element it erases. Only clients that look for servers (`proactive`) have such connections.
- **An advertisement makes a configured peer transient** (C189, `C189_forgotten`, `C189_refuted`): `receive` sets `give_up` of whatever `addConnection` returns,
  also of a configured peer, which is then removed for good when it cannot be reached for thirty seconds.
- **Python values change on their way to the kernel and back** (C191, C194): integers are cut to 32 bits without notice (`C191_wide_int`), those beyond 64 bits become -1
  (`C191_huge_int`), a lone `True` becomes 1, text ends at a NUL, arrays in the other byte order arrive with their bytes exchanged (`C191_byte_order`: `NPY_CARRAY_RO`
  does not ask for native order), and arrays with one element become numbers.
- **Some nested sequences cannot be converted** (C191): `((1,'a'),(2,'b'))` throws (`C191_mixed_rows`), since a vector for tuples will not take the list an inner mixed tuple becomes;
  a tuple of `None` and an identifier throws (`C191_none_hiid`), since `getDMIType` leaves the `KeyError` for `None` pending and `convertSeqToHIID` takes it for its own; likewise lists within lists (`C191_list_list`).
- **Fields that cannot be converted vanish** (C192, `C192_refuted`): `pyToRecord` skips them with a debug message only.
- **A message with an addressee but no sender cannot be converted** (C193, `C193_no_sender`): the `AttributeError` for `from` is pending when `to` is converted.
- **Writes to a tile that shares its memory can go to the other tile** (C196, `C196_stray_write`): the base class's `copy`, `setTileId` and `wcolumn` call the base class's `makeWritable`, which
  gives the tile memory of its own but leaves the arrays of `VTile` behind. `Sink` does this: it fills its column through `wcolumn` and then writes flags through `wflags()` (`Sink.cc:172, 241`);
  if the output column was there already and the input tile is shared, the flags go to the original tile and are missing from the output.
- **Adding or copying rows puts array columns out of order** (C199, C200): both copy bytes as if a row's elements were together, but arrays have time as their fastest index.
- **A change of format copies by the size of the old column** (C201): if a column keeps its shape and gets a smaller type, memory beyond the new column is overwritten.
- **Tiles without rows** (C197): making one with columns reads beyond an empty list of pointers; copying one throws.
- **`copy` with a start row into an empty tile, or a start beyond the source with the default count, is not checked** (C199): memory beyond the end is written.
- **`ConfigMgr::merge(other, override=true)` does not override** (C203, `C203_merge_partial`): it uses `map::insert`, which leaves an existing setting alone.
- **Some settings do not survive saving and loading** (C202): names with blanks or starting with `#`, values with ends of lines or leading blanks, lines longer than 1023 bytes.
- **`getOption` matches prefixes** (C204): `-gwpeer` is also the option `gw` with value `peer`.
- **A second batch of nodes breaks the first** (C206, `C206_again`): `createNodeBatch` initialises all nodes of the forest, and `setChild` refuses a child that is set; every node with a child or stepchild is then inactive.
- **A child given twice** (C205, `C205_refuted`): by label and by number, the last field in the order of the record is taken without an error.
- **`Forest::get` checks `node_index > nodes.size()`** (C207, `C207_refuted`): the index just beyond the last reads beyond the end of the vector.
- **Explicit dependency masks get lost** (C208): a definition with both `active_symdeps` and `depend_mask` loses the mask, since the mask of the dependencies is written into the same record before it is read (`C208_both`); any refused `setState` loses a mask that was given (`C208_mask_lost`) and dependencies set from Python (`C208_python_lost`). An empty list from Python takes the first element of an empty vector (`C208_python_empty`).
- **Vectors** (C209): a vector of size 0 gets size 1 (`C209_refuted`, Vec.cc:117); `resize(1)` of a scalar leaves a vector that is a scalar but is not after it was sent (`C209_refuted_scalar`: the header gets the size without its sign); elements of binary types that are added by `resize` have whatever is in memory; looking at a missing object makes it valid; the only element cannot be removed.
- **ModRes forgets its factor** (C210): a request with fewer cells than are to be joined changes the node's setting for good, so that later requests are joined by fewer cells, or not at all (`C210_refuted`, ModRes.cc:172, 230). A single `num_cells`, documented as being for both axes, leaves the other number uninitialised (`C210_single`); any change drops the cells of axes other than the first two (`C210_axes`); `num_cells` 0 leaves the number of cells but makes them equal; and factors win over numbers of cells, though documented the other way round.
- **Resampler's integration** (C211, C212): a constant is multiplied by the (integer) quotient of the numbers of old and new cells instead of being kept (`C211_refuted`, Resampler.cc:465); cells that are as many as before are taken for the same ones (`C211_counts`, Resampler.cc:308); one old cell with several new ones makes the code read beyond the end of its arrays (`C211_split`, Resampler.cc:381, 437); an old cell that ends where a new one starts is counted for the flag density of the new one (`C212_refuted`); and flags of values with one row or column are ignored and lost (`C212_single`, Resampler.cc:570-612). Perturbed values are not set at all (Resampler.cc:718-784).
- **PSVTensor** (C214, C215): a perturbation of the uvw coordinates does not make the phase be computed again, so derivatives with respect to them are zero (`C214_uvw`, PSVTensor.cc:330, 343); perturbed products of Jones terms overwrite the main ones that later perturbations use (`C214_order`, PSVTensor.cc:391-395); without Jones terms a perturbation of the brightness is lost (`C214_brightness`, PSVTensor.cc:403, `0 < 0`); and with the three mandatory children only the node fails, as `input_dims.size()-first_jones_` is unsigned and odd for 3-4 (`C215_three`, PSVTensor.cc:129). Messages on Jones children beyond the sixth read past the end of `child_labels`.
- **Parallel server** (C216, C218, C219): `MPIProxy::processCommand` waits for a reply that the receiver never sends, as the tag has no action (`C218_refuted`, MeqMPI.cc:236-244); `execute` or `getSyncState` for a node that the other process does not have, or a `getSyncState` that throws, posts an error but no reply, so the caller waits for ever (`C218_refuted_unknown`); clearing the cache, breakpoints, publishing levels, state dependencies and parental status of remote nodes are sent and ignored (`C219_refuted`; `procNodeSetPublishingLevel` exists but is not called); `decodeMessage` converts sizes of blocks to `int` before it checks them, so that a size of 2^32 passes and 4 GB are copied (`C216_refuted`, MeqMPI.cc:397, 404). Read but not modelled: `stopCommThread` may run before `runCommThread` sets `comm_thread_running_`, and the thread then never ends.
- **Command loop of the server** (C220, C221, C223, C224): `Halt` ends the execution thread without answering the commands in its queue (`C220_refuted`, MeqServer.cc:1353); the event `Command` alone matches the mask `Command.*` and reads `qe.command[0]` of an empty identifier (`C221_refuted`, line 1213); a record whose `Command.Index`, `Args`, `Silent` or `Sync` has a wrong type ends the server, as the exception leaves `run()` (`C221_refuted_types`); a request to abort that arrives after the state is announced but before `nodeExecute` clears the flag is answered and forgotten (`C223_refuted`, lines 600-607); `getNodeList` reads the number of the forest after it copied the list, so a change in between gives the old list the new number and the client never gets the new one (`C224_refuted`, lines 516-536). Read but not modelled: `Assert(qe.command[0] = AidNode)` assigns; `Command.Halt` with the sync flag sets `running_` in the execution thread while the main thread stays blocked until the next event.
- **Measurement sets** (C225-C227, C229): of two rows with the same baseline and time only the last is read (`C225_refuted`); with an increment of time, rows instead of timeslots are counted in `openMS`, as `curtime` is only set for accepted ones, and reading can end with "inconsistency in MS" (`C225_incr`, MSInputChannel.cc:326-334); with one row per tile, `tile_sizes_[++current_tile] = 0` writes behind the end of the vector (`C226_refuted`, line 377); the result of `selms_.sort("TIME")` is dropped, so tables not in order give timeslots that do not exist (`C226_unsorted`, line 237); limits of channels are compared with `>` instead of `>=`, so the number of channels passes as a channel, and a last channel before the first one stays negative (`C227_refuted`, `C227_before`, lines 138-141); with `BITFLAG` in use but not written, `FLAG` is made from the old bits and the flags of the tile are lost, while those of rows are not (`C229_refuted`, MSOutputChannel.cc:340-397). Read but not modelled: phases inverted on input are not inverted back on output.
- **Measurement sets in order of rows** (C230): `row_to_tile_` is not cleared when tiles are flushed; if the table is not in order of time, rows of earlier tiles between those of later ones are written again, with data of another baseline and time (`C230_refuted`) or from a tile that does not exist (`C230_outside`). Found by reading: the flags of a tile that is written are changed in place (blitz arrays are references), and a number whose tiles have no rows fails the assertion.
- **Events** (C232-C234): `hasEvent` of a multiplexed channel takes the event it finds from the queue, and the next `getEvent` does not give it (`C232_refuted`); if the next message is allocated at the same address, the old event is given in its place and that message is lost (`C232_stale`). An event disabled in the output map is said to be bound (`C233_refuted`). `FileChannel::hasEvent` does not look at the mask after it has read the file (`C234_refuted`). Found by reading: `resolveScope` and `resolvePriority` take the front of an id that may be empty.
- **Locations of extremes** (C241): a value that has fewer axes than the cells, or more than four, leaves results unset (`C241_refuted`, `C241_five`).
- **Images of patches** (C242, C243): if all sources have `l = 0`, or all have `m = 0`, such as one source at the phase centre, `dl` is 0 and `int(lmax/dl)` converts a NaN (`C242_refuted`). Pixels are assigned, not added to: of several sources in a pixel only the last is shown (`C243_refuted`).
- **Logarithmic polynomials** (C244, C245): `axis_function` tests the ends of the grid only (`C244_refuted`), and uses a scale that is not initialized if there is no list of scales (`C244_scales`). If the logarithm cannot be taken at the ends of one axis, `changeSolveDomain` treats the other axis as linear too, although `axis_function` takes its logarithm (`C245_refuted`). Found by reading: for a vector, `changeSolveDomain` leaves logarithmic axes as they are.
<!-- MORE-FINDINGS -->

## Per-property plan

<!-- PLAN-BEGIN -->
* **C01 HIID wildcard matching decides pattern overlap.** Model ids as lists of integers with the reserved negative codes; prove by simultaneous induction that the loop equals non-emptiness of the intersection of two inductively defined languages. *Status: proved.* The symmetry and language statements are unconditional.
* **C02 HIID subsetOf decides pattern inclusion.** Same model as C01; the converse direction builds a separating identifier from the mismatch position. *Status: proved.* 
* **C03 HIID binary form round-trips.** Model components as 32-bit words in byte lists; prove decode-after-encode by induction over the id. *Status: proved.* 
* **C04 HIID ordering is a strict total order.** Lexicographic comparison function over lists of integers; induction on the lists. *Status: proved.* 
* **C05 Index popping keeps the rest of an identifier intact.** Direct functional model; case analysis. *Status: proved.* 
* **C06 Splitting at a slash is a decomposition.** Model and induction over the identifier. *Status: proved.* 
* **C07 The atomic-id registry maps names and numbers consistently.** Finite-map model; invariant by induction over the history, counterexample for overwrite. *Status: proved.* C07_case_collision shows that the case-insensitive reading of the proviso is needed.
* **C08 Counted references neither leak nor double-free.** Heap model with reference slots and targets; invariant (count = number of slots pointing at it; alive iff owned count>0) preserved by each operation, by induction over the op list. *Status: partial.* No dangling reference, double deletion or wrong count in any history; leak-freedom is proved for histories without deep copies and without making an attached reference read-only, and is false of the code otherwise (witness).
* **C09 Copy-on-write isolation.** On the C08 heap model with object contents: a write by slot r changes the value read through slot s only if s = r or r is shared. *Status: proved.* 
* **C10 Locked references are immovable.** On the C08 model: error outcome and state equality. *Status: partial.* Proved for a locked destination; transferring out of a locked reference fails but has already detached the destination (witness).
* **C11 A block set reports its true total size and is FIFO.** Queue model with cached size; invariant for all operations except flushToCursor, refutation by witness for it. *Status: partial.* Proved without flushing; after flushToCursor the reported size is wrong (witness).
* **C12 A record behaves as a finite map.** Association-list model of std::map; refinement to a function HIID -> Option value. *Status: proved.* For all histories including merges, protection changes and fields read from blocks.
* **C13 Record merge is a left- or right-biased union.** On the C12 model, induction over the source record. *Status: proved.* A merge that fails on a protected field has already taken over other fields (witness); the property does not promise otherwise.
* **C14 List indexing and editing agree with a sequence.** List model with a distinct undefined-behaviour outcome; correct for the writable path, refuted for the const path with witness. *Status: partial.* All editing calls at all positions are proved; reading at negative positions or from an empty list is wrong in the code (witness and general theorem).
* **C15 Records and lists survive serialisation.** Recursive tree model; mutual induction on the tree with a suffix of extra blocks. *Status: proved.* Over any other classes whose own conversion round-trips; protection flags are not written by the code and are left out.
* **C16 Time stamps are exact and normalised.** Integer model with the normalisation loops; prove value preservation and the range by well-founded recursion. *Status: proved.* Seconds are unbounded integers in the model.
* **C17 Sequence packer round-trips.** Byte-list model parametric in an element codec; induction over the sequence. *Status: proved.* For blocks of at least 8 bytes; in a smaller block the count is written out of bounds before the size is checked (C17_tiny_block).
* **C18 Map packer round-trips.** Byte-list model; proved where the arithmetic is right, refuted by witness for packSize and the size check on variable-size values. *Status: partial.* False of the code for values of variable size (general theorem and witness); proved for fixed-size values.
* **C19 Object files are read back exactly, and truncation is never read as data.** Byte-stream model; induction over the object list and over the cut point. *Status: proved.* Over any classes whose own conversion round-trips to non-empty blocks.
* **C20 Subscription matching reflects exactly the current subscriptions.** Refinement to a finite set of pairs; invariant by induction over the history. *Status: proved.* For every history of subscribe, unsubscribe, clear and merge.
* **C21 Subscription sets survive packing.** Byte model on top of C03; invariant for the cached size. *Status: proved.* For every history, for sets below 2^30 elements and 2^64 bytes (the code counts in int and size_t).
* **C22 Worker-process message queues are priority-ordered and FIFO within a priority.** Queue model; invariant Sorted and stability (filter by priority is append-only) by induction. *Status: proved.* 
* **C23 The dispatcher runs the worker with the most urgent message.** Model of the selection loop; invariant over the fold. *Status: proved.* 
* **C24 Worker addresses are unique.** State machine with instance counters; invariant by induction. *Status: proved.* 
* **C25 Point-to-point and published messages reach exactly the addressed workers.** Model of send over the list of attached WPs; set characterisation of the recipients. *Status: partial.* Proved for addresses without '*' in the class; false of the code with '*' (witness). The gateways' own forwarding decision is a parameter.
* **C26 Removing an event source only removes that source.** List model, refinement to a filter. *Status: partial.* Proved for timeouts, signals and for inputs named by descriptor; removing all inputs of a worker at once is false of the code (witness).
* **C27 Messages survive the wire.** Structured header model on top of C03/C15. *Status: proved.* Latency statistics (not compiled in) are left out.
* **C28 Request-id difference masks are exact.** List/bit model with the 16-bit limit made explicit: exact on the first 16 components, refuted beyond. *Status: partial.* Exact for the first 16 components, hence for all ids of up to 16 components; false beyond (witness). Empty ids compare unequal under any non-empty mask (C28_null_id).
* **C29 Changing a dependency bumps the request id in exactly its components.** Functional model; pointwise theorem. *Status: proved.* For masks without the sign bit; with it the functions do not return (C29_negative_mask).
* **C30 Symbolic dependency masks are consistent.** State machine; invariant over histories, counterexample if a step misses the update. *Status: partial.* False of the code after a load that fails half-way (witness).
* **C31 Node result caching is transparent.** Model of a node with a semantic function respecting its mask; simulation between cached and uncached execution by induction over requests and over the tree. *Status: partial.* Proved for requests without failing riders and nodes that do not ignore the request type; false of the code otherwise (witnesses).
* **C32 Forest indices and names identify nodes uniquely.** State machine with node table and name map; invariant by induction; the out-of-range lookup is an explicit undefined-behaviour outcome. *Status: partial.* All histories; the one index equal to the table size is read past the end (witness).
* **C33 Breakpoint flags and masks agree, single-shot breakpoints fire once.** Bit-mask state machine; invariant and trace properties. *Status: proved.* For all histories of node and forest breakpoints.
* **C34 Child poll order is always a permutation of the children.** Model of setChildPollOrder including the partial update at failure; permutation theorem for success, refutation for failure. *Status: partial.* Proved after every successful request; false of the code after a rejected one (witness).
* **C35 Synchronous polling combines child outcomes faithfully.** Fold model over the children; characterisation of the polled prefix and returned code. *Status: proved.* Single-threaded poll; the multithreaded one is C70.
* **C36 Work orders are executed exactly once.** Atomic-step state machine (each step is one critical section); invariants by induction over schedules. *Status: proved.* For the pool as the server sets it up. C36_join_refuted: threads joining later can make the counters' table too short.
* **C37 Shape merging is a partial semilattice.** Option-valued list function; induction on the shapes. *Status: proved.* All shapes.
* **C38 Broadcast arithmetic touches the right elements.** Model strides, counter and stepping loop; loop invariant pointer = sum of index*stride. *Status: proved.* For every operation on elements, all shapes without empty axes.
* **C39 Flagged reductions count every point once.** On the C38 model; proved for nelements and mean without collapsed axes, refuted for sum with flags of greater variability. *Status: partial.* The count of elements is right in general; the mean is right in general; sum and product when the flags do not vary along axes where the data are constant, and false otherwise (witness).
* **C40 Slicing enumerates each slice once.** Loop invariant as in C38. *Status: proved.* For distinct axes. Naming an axis twice is undefined behaviour (C40_duplicate).
* **C41 Domain envelopes are least upper bounds.** Finite map axis -> interval over an ordered field; order proofs. *Status: proved.* Over rational coordinates.
* **C42 Cell segments partition the grid.** Loop model; invariant by induction over the grid. *Status: partial.* Partition, maximality and step-by-step regularity proved; steps that drift slowly are one segment although the first and the last differ (witness).
* **C43 Changing resolution preserves the cell coverage.** Rational-arithmetic model; refutation for non-divisible INTEGRATE. *Status: partial.* Integration by a number that is not a divisor drops the last cells (witness); everything else is proved.
* **C44 Cells comparison is equality of grids.** Model; refuted for empty Cells, proved for non-empty ones. *Status: partial.* Proved for operator == on proper Cells; compare ignores the grids and is wrong for empty Cells (witnesses).
* **C45 Merged perturbation lists are sorted unions.** Model of the in-place merge in one array; refinement to set union. *Status: proved.* For ids that are non-negative and strictly increasing in each child.
* **C46 Solvable-parameter numbering is a bijection.** Fold model; induction over the mask. *Status: proved.* Over rational numbers.
* **C47 Changing a polynomial's normalisation does not change its value.** Model over a field; binomial theorem from Mathlib; Horner evaluation equals the polynomial sum. *Status: proved.* Over rational numbers and exact binomial coefficients, for new scales that are not 0 (with a scale of 0 the call stops halfway: C47_zero_scale).
* **C48 The parameter table returns what was stored.** Key-value store model with the domain list; refinement to a map (name, domain) -> funklet. *Status: partial.* The store is proved for every history; the perturbation and weight of a constant polynomial are lost (witness), and a domain within the tolerance of two others may get either number, so that the old funklet is not replaced (witness).
* **C49 A vellset's derived shape covers all its parts.** State machine on top of C37. *Status: partial.* The shape covers all parts after any history, and is their merge while no part is replaced or removed; a replaced part leaves its extents behind (witness).
* **C50 Failures recorded in a result are not lost.** State machine; refuted by witness for two failures; partial theorem for what is kept. *Status: partial.* False of the code: adding a failure removes the earlier ones (witness); only the last addition is reported.
* **C51 Extracting part of an identifier.** Functional model with out-of-range reads as undefined behaviour; proved for positions inside the id, refuted by witness for negative positions. *Status: partial.* Proved for start positions inside the identifier; false of the code for negative positions (witness theorem).
* **C52 Prepending a component keeps the rest.** Functional model of the vector operations; proved for the empty id, refuted by witness for longer ones. *Status: partial.* False of the code in general (witness theorem); proved for the cases that work.
* **C53 Corrupt subscription blocks are reported.** Byte model of C21 with out-of-range reads as undefined behaviour; proved when the size check cannot wrap, refuted by witness otherwise. *Status: partial.* False of the code when the size check wraps around (witness); proved when it cannot.
* **C54 A worker never sleeps on unseen messages.** Invariant by induction over queue operations. *Status: proved.* 
* **C55 An accepted message is handed out once.** Model of the poll step with the handler's effects; proved when the handler leaves the queue head alone, refuted by witness otherwise. *Status: partial.* False of the code when a handler lets a more urgent message in (witness); proved otherwise.
* **C56 Timeouts fire when due.** State machine with the cached deadline; invariant by induction; refinement of the check to a filter. *Status: proved.* 
* **C57 Waiting messages age.** Model of the tick-based priority; arithmetic over any selection round. *Status: proved.* 
* **C58 An idle dispatcher has no work left.** Invariant over the dispatcher state machine; proved for non-negative priorities, refuted by witness for negative ones. *Status: partial.* Proved for non-negative priorities; false of the code for negative ones (witness).
* **C59 Each ready descriptor is reported once to each interested worker.** Model of the scan over inputs, using the C26 invariant that the watched sets cover all registrations. *Status: proved.* For histories of valid calls (removals name a descriptor).
* **C60 Identifiers are read back from their own text.** Text model over the C07 registry; induction over the components; refutation by witness for empty components. *Status: partial.* Proved for components with a faithful text; false of the code for empty components (witness).
* **C61 Removing a field hands back its value.** Record model of C12; refutation by witness for attached objects, proof for packed fields. *Status: partial.* False of the code for attached objects (witness).
* **C62 Container access to record fields is always defined.** Record model of C12 with undefined behaviour as an outcome; refutation by witness for valid field numbers, proof for the rest. *Status: partial.* False of the code for numbers of existing fields: an iterator is used uninitialised (witness).
* **C63 Appending a list appends its items once.** List model of C14; proof for distinct lists; proof that the loop does not end for a non-empty list appended to itself. *Status: partial.* False of the code when a list is appended to itself.
* **C64 Corrupted blocks are rejected.** Byte-level model of C15 with undefined behaviour as an outcome; refutation by witnesses; proof for list headers. *Status: partial.* False of the code (witnesses); proved for lists whose items are readable.
* **C65 Arrays survive packing.** Byte-level model; refutation for fixed-size elements (the copy starts at the wrong place), induction for elements of variable size. *Status: partial.* False of the code for fixed-size elements (witness).
* **C66 Rewinding an object file.** Model of C19; refutation after end of file, proof before. *Status: partial.* False of the code once the end of file has been seen (witness).
* **C67 A failed write does not spoil an object file.** Model of C19; refutation for later objects, proof for earlier ones. *Status: partial.* Earlier objects are safe; later ones are lost (witness).
* **C68 Damaged messages are rejected.** Byte-level model of C27 with undefined behaviour as an outcome; refutation by witnesses, proof for non-negative sizes. *Status: partial.* False of the code (witnesses); proved for headers with non-negative sizes.
* **C69 A changed dependency always gives a new request id.** Counter invariant over histories; refutation when two dependencies share a bit. *Status: partial.* False of the code when dependencies share bits (witness); proved for disjoint masks.
* **C70 Multithreaded polling.** Event machine of parent, work orders and deliveries; invariant over reachable states, decreasing measure, refutation under the abandon policy. *Status: partial.* Every schedule, when no child's outcome ends the poll early; under the abandon policy the poll can hang (witness).
* **C71 Compatibility of shapes.** Shapes as lists of extents; refutation for a first shape with more axes, proof otherwise. *Status: partial.* False when the first shape has more axes than the second (witness): the check of the rank is commented out.
* **C72 Maximum and minimum of a flagged array.** Model of C39; refutation for arrays of negative values, proof when some value reaches the start value. *Status: partial.* The maximum is wrong for arrays all of whose values are below the smallest positive double (witness).
* **C73 Envelopes pass the superset test.** On the model of C41; refutation for domains with different axes. *Status: partial.* The test is right; the envelope passes it when both domains have the same axes, and false otherwise (witness).
* **C74 Combining cells.** Loop invariants over the axes. *Status: proved.* For proper Cells.
* **C75 Resampling by nothing changes nothing.** Model of C43 and C44; refutation for Cells with fewer than 8 axes. *Status: partial.* Equal only to Cells of the maximum rank (equivalence and witness).
* **C76 A regular grid divides its range.** Rational-arithmetic model. *Status: proved.* 
* **C77 Perturbed values of a function.** Invariant: each child's position is the number of its ids below the current one. Refutation of definedness for children with different numbers of perturbation sets. *Status: partial.* For children with the same number of perturbation sets; with different numbers the code reads past the end (witness).
* **C78 Planes and return code of a function's result.** Plane-by-plane model of the call; the return code is refuted for planes that fail because a child's plane failed. *Status: partial.* All but the exact meaning of the return code, which is proved when no plane of a child is a failure; otherwise failed planes may be reported as missing data (witness).
* **C79 A failed vellset carries no data.** Model of C49; refutation for weights. *Status: partial.* False for weights: the pointer to them dangles (witness); proved for all other parts.
* **C80 Value and perturbed values of a polynomial.** Horner's scheme and the power loops equal the polynomial sum; refutation for more than 10 coefficients in the second variable. *Status: partial.* False with perturbations and more than 10 coefficients in the second variable, where a table overflows (witness).
* **C81 Solve domain of a polynomial.** On top of C47; refutation for polynomials with one axis. *Status: partial.* False for a polynomial with one axis, where an offset that does not exist is read (witness).
* **C82 Changing the number of coefficients.** Invariant of the copying loop; refutation when the number of axes changes. *Status: partial.* Proved when the number of axes stays the same and for constants; false when it changes (witnesses).
* **C83 Making a polynomial solvable does not change it.** Model of C46; refutation for the default mask. *Status: partial.* False without a mask: the coefficients outside the default selection are set to 0 (witness).
* **C84 Domain numbers survive restarts.** Byte-level model of the domain file (buffered, append mode). Refutation for a crash in the middle of an entry. *Status: partial.* False when a crash leaves part of an entry: what is added afterwards cannot be read (witness).
* **C85 Keys of the parameter table are unambiguous.** Byte-level model. *Status: proved.* Reading back works exactly for names without zero bytes.
* **C86 Records of the parameter table are read as written.** Byte-level model of the record; the 8-byte prefix, which is read as a constant, is a witness against truncation in general. *Status: partial.* False for a record cut to its first 8 bytes, which is taken for a constant (witness).
* **C87 Access to parts of an array.** Model of the parser as a state machine; invariant over the identifier; strided walk = positions named. Refutations for ends out of range, open ends, steps that do not divide and axes that are not named. *Status: partial.* Proved for selections on all axes with ends on the axis and steps that divide; otherwise false (witnesses).
* **C88 Arrays survive their blocks.** Byte-level model. Refutations: a block that ends within the extents; negative extents. *Status: partial.* The round trip is proved; blocks that end within the extents are read past their end, and negative extents are accepted (witnesses).
* **C89 Arrays are values.** Refinement of the shared heap to independent values; refutation for arrays that are part of another one. *Status: partial.* Proved for every history of whole arrays; false for arrays that are part of another one (witnesses).
* **C90 Messages between processes arrive intact, in order, once.** Byte-level model of packets and of the reader threads with their two locks; invariant over all schedules. *Status: proved.* For messages with no block above 512 MB (see C90_limit).
* **C91 A reader resynchronises.** Same invariant for junk without the first letter of the signature; refutation for headers that begin like a signature. *Status: partial.* Proved for junk without the letter 'o'; a header that begins with 'o' and is not a data header stops the reader for ever (witness).
* **C92 A message that cannot be unpacked does no harm to others.** Same invariant if nothing is left of the message; refutation by blocks that are left. *Status: partial.* Proved if unpacking leaves no blocks behind; blocks that are left make the reader drop the next message (witness).
* **C93 A gateway takes what is wanted at the other end.** The decision against the recipients the dispatcher at the other end finds. Refutation for '*'. *Status: partial.* Nothing is held back for any destination; the equivalence holds without '*' and is false with it (witness).
* **C94 The routing table follows the workers of the peer.** Invariant over the news about a worker; byte-level round trip of the first message. Refutation: subscriptions changed while stopping. *Status: partial.* Proved if workers do not change their subscriptions while they stop; otherwise an entry for a worker that is gone stays (witness).
* **C95 Exactly once over all processes.** Conservation law: deliveries made plus deliveries to come is constant. Refutation: a message to everybody. *Status: partial.* Proved for messages that are not for a gateway itself; a message to everybody goes round and reaches a worker any number of times (witness).
* **C96 Scopes are respected.** Address computed by publish against the recipients. Refutation: publish with an id passes the scope as the flags. *Status: partial.* Proved for publish with a message and for subscriptions; publish with an id ignores the scope (witness).
* **C97 Messages do not circulate.** The number of tasks a task leads to, by depth in hops. Refutation: a message to everybody. *Status: partial.* Proved for messages that are not for a gateway itself, in any network; false for a message to everybody (witness).
* **C98 Composing results.** Loop invariants over the children. Refutations: counts of failures and of planes that differ in tensor mode; a result larger than its dimensions. *Status: partial.* Planes are proved; the return code is wrong in tensor mode with scalars or empty children, and results can have more planes than their dimensions say (witnesses).
* **C99 Selecting from a tensor.** The strided walk against row-major positions. Characterisation of the selections for which it is right; refutation for two sliced axes. *Status: partial.* True if and only if no more than the last sliced axis has an extent above 1 (C99_iff); false otherwise (witness).
* **C100 Pasting into a tensor.** On top of C99. Refutation for two sliced axes. *Status: partial.* As C99; pasting two sliced axes overwrites and adds other planes (witness).
* **C101 Products of matrices.** Refinement to Mathlib's matrices, perturbed values by the theorem of C77. Refutation for a scalar that is zero. *Status: partial.* Products are proved over any commutative ring; zero times a tensor is a scalar, and hides the tensor's failures (witness).
* **C102 Dimensions of results.** Mixed-radix numbers; invariant over building operations. Refutation for one plane with two axes. *Status: partial.* Proved but for a single plane made with two or more axes (witness).
* **C103 Threaded channels: what is posted.** Two-thread transition system; inductive invariant: accepted = sent + in flight + queued. Refutation: closing marks the channel closed before it flushes. *Status: partial.* Order and at-most-once always hold; everything arrives if nothing is queued when the channel is closed; closing with events queued loses them (witness).
* **C104 Threaded channels: what is fetched.** Same invariant, for the other queue. *Status: proved.* 
* **C105 Threaded channels: bounded queues.** Same invariant. *Status: proved.* 
* **C106 Threaded channels: errors reach the application.** Same invariant: raised = thrown + on the list; closing returns with an empty list. *Status: proved.* See C107 for closing with an error on the list, which does not return.
* **C107 Threaded channels: calls end.** Ranking functions for the worker; invariants on who sleeps when; lost-wakeup analysis. Refutations: waiting for an event when the channel behind closes, closing with an error on the list, closing with events in both queues. *Status: partial.* Proved while the channel behind stays open, and for closing a flushed channel without errors; otherwise calls hang (four witnesses).
* **C108 Visibility streams: baselines have their own places.** Triangular numbers; invariant: while a data set comes in, the tables have the size of its header. *Status: partial.* Numbering proved outright; no access outside the tables for any sequence of events whose tiles have antennas and a row with a time; false for a tile whose rows all have time 0 and for a negative antenna (witnesses).
* **C109 Visibility streams: what the tree is run on.** Induction over the tiles from within a snippet, against a specification that groups tiles; the calls' outcomes are an oracle over the whole trace. *Status: partial.* Proved for data sets whose tiles are as they should be, whatever the calls do; with a tile no cells can be made of, tiles get the request of the snippet before, and all tiles get the rows of the first (witnesses).
* **C110 Visibility streams: each node gets its baseline.** Projection of C109 to one node; induction over data sets; refutation: resizing the tables drops nodes. *Status: partial.* Proved if every header announces the baseline; a data set with fewer stations detaches nodes for good (witness).
* **C111 Visibility streams: the output is well formed.** Invariant on the kept header and the form of what was written; the wanted output is a function of the trace. *Status: partial.* What is written is proved outright; the form holds but for a footer without a header when nothing was written (witness) and for headers that lack fields (witness).
* **C112 Visibility streams: errors are reported.** Every function is a sequence of atomic steps, each of which keeps errors; both directions by induction over the steps. *Status: partial.* Proved without a limit on the number of snippets; with one, errors of the last snippet are lost (witness). The other direction is proved with any limit.
* **C113 Visibility streams: the limit on snippets.** Part of the induction of C109. *Status: partial.* The number of snippets is proved; a data set cut short ends without a footer for the nodes (witness).
* **C114 Spigots give the data and flags of the request.** Tiles as functions of their indices; flags bit by bit. Refutation without a flag mask. *Status: partial.* Proved with a flag mask; without one only the first time slot gets its row's flags (witness), and missing rows are flagged although the documentation says that there are no flags (witness). Columns without correlations are not modelled.
* **C115 Spigots give each request its own tile.** Queue as a list; induction over histories. Refutations: other requests empty the queue; a second tile of a snippet is never used. *Status: partial.* Proved for snippets in order; a request for something else empties the queue, and the second tile of a snippet is never used (witnesses).
* **C116 Sinks write what they should and nothing else.** Induction over the planes with a frame invariant. Refutations for flags of part of a tile, zero planes and single planes. *Status: partial.* Frame and values proved outright; flags are dropped if the rows are part of the tile or the plane is zero (witnesses). Columns without correlations are not modelled.
* **C117 From spigot to sink nothing is changed.** Composition of C114 and C116. *Status: partial.* Values are copied for any rows; flags stay as they were if none are masked; row flags do not reach the tile if the rows are part of it (witness).
* **C118 Tiles of a grid are where they should be.** Tiling as a list of axes; invariant: counters are the cell's index modulo the tile size and the current tile is the position of the quotient. *Status: proved.* 
* **C119 Solver tiles are made of whole tiles of every parameter.** Search for the multiple proved against IsLcm; the walk of C118 over the grid of tiles gives the solver tiles. Refutation: division by zero with undefined axes. *Status: partial.* Proved if all axes are defined, no tile is larger than the grid and tile sizes can be compared; with an axis that is not defined there is a division by zero (witness).
* **C120 Every tile of every parameter has an unknown of its own.** Counting invariants for the allocation loop. Refutation: tile sizes that cannot be compared are taken for the same key. *Status: partial.* Proved under the same conditions; one parameter tiled in time and another in frequency get the same tiles (witness).
* **C121 Exactly the valid unflagged points make equations.** The loop is shown equal to a list comprehension over the cells. *Status: partial.* Proved under the conditions of C119; without them setting up may fail (witness).
* **C122 Equations and updates are about the same tile.** Composition of C118 - C121 and C123 for parameters with the same tile sizes. Refutation: the solver tile is used as index of the parameter's tile. *Status: partial.* Proved for parameters with the same tile sizes; otherwise equations are put on the wrong tile's unknown (witness).
* **C123 Updates reach the tile they were solved for.** Slices by solver tile shown equal to the tiles in order when these are ordered alike (always so with one tiled axis). Refutation: two tiled axes. *Status: partial.* Proved if tiles come in the order of their solver tiles, so whenever only one axis is tiled; with two axes updates are exchanged (witness).
* **C124 Every solvable coefficient has its own entry in the spid map.** Induction over the parameters. Refutation: more than 256 coefficients. *Status: partial.* Proved for up to 256 solvable coefficients a parameter; with more, entries of the next node are lost (witness).
* **C125 A solution is one discovery, at most max-iterations evaluations, and perhaps one update.** Loop invariant over the history of requests. *Status: proved.* What the children reply, the fits and the flags are arbitrary; evaluations of children are atomic.
* **C126 Every solution is sent to the parameters exactly once, in order.** Invariant: what was delivered is the rows so far but the last. Refutation: an interrupt in an iteration without equations sends the last update twice. *Status: partial.* Proved unless an interrupt is seen in an iteration without equations, when the last update is sent twice (witness).
* **C127 The solver result says what the fits gave and whether enough of them converged.** Invariant; as documented if there are equations for all. Refutation: subsolvers without equations count as converged. *Status: partial.* What converged means is proved exactly; as documented only if there are equations for all subsolvers: those without count as converged (witness).
* **C128 An abort ends the solution with the code for an abort and sends no more updates.** Cases of the way out of the loop. Refutation: the flag raised while the last fits are made. *Status: partial.* No result and no update are proved; the code is that for an abort unless the flag is raised during the last fits (witness).
* **C129 A solution all of whose children fail is a failure.** Proved: failing children have no influence at all; the discovery's failure is returned. Refutation for failures in iterations. *Status: partial.* Failures in iterations are ignored (witness).
* **C130 Solved parameters are saved exactly when that was asked for.** Invariant over the riders. Refutation: without last_update, the default, the command is put in a request that is never sent. *Status: partial.* Proved with last_update, equations in all iterations and no late interrupt; without last_update nothing is saved (witness).
* **C131 Solving with worker threads gives what one thread gives.** Transition system of main thread and N workers with two mutexes; invariants for ownership of subsolvers, counts and mutexes, for all schedules. *Status: proved.* At least one worker (the threads are used only then). Mutexes and condition variables are taken to behave as POSIX says.
* **C132 A fit that throws in a worker thread is reported.** Same transition system; the multiset of exceptions is part of the invariant. *Status: proved.* Exceptions other than std::exception are not modelled.
* **C133 A multi-threaded solve always comes back.** A measure that every effective step decreases, and an enabled step in every reachable state in a call. *Status: proved.* 
* **C134 A tiled parameter has one domain for each tile, and every cell lies in exactly one.** List of domains as a product of ranges; centres against edges by the order of the cells. *Status: proved.* 
* **C135 A composed funklet has in each cell the value of a part that is for it, and the default elsewhere.** The nested loops with their counters as functions on lists; a lemma for the cell written; induction over the parts. Refutation: a part that ends before the grid. *Status: partial.* Proved if no part ends before the first centre and parts with the same range along an axis have the whole grid in it; otherwise false (witness).
* **C136 A tiled parameter evaluates each cell with the coefficients of its tile.** C134 and C135 together; tiles are already in the order of the sort. *Status: proved.* Order and preparation for cells wider than the tolerance of 1e-16. Forced shapes are left out.
* **C137 A copy of a composed funklet has the same values.** From C135 for cells some part is for. Refutation: the default is lost. *Status: partial.* Proved for cells one part is for; elsewhere the default is lost (witness).
* **C138 What a parameter starts from for a new domain.** The choice as a relation separate from the code, shown to have one solution; invariant over all histories. Refutation: an entry for half of a domain is not used after a request for the whole. *Status: partial.* Proved unless the parameter goes on with what it has; it also does that for a new domain inside the one it has a funklet for (witness).
* **C139 A parameter that is not solvable has no memory.** Invariant: no funklet between requests. *Status: proved.* Parameters that are given a funklet through their state are left out.
* **C140 Each update of a solution is added once, in order.** Induction over the sequence, for any kind of coefficients. Refutation: an update after another command of the same request. *Status: partial.* Which updates count is proved exactly; one after another command of the same request is lost (witness).
* **C141 What is saved is what is read back.** The row written as an explicit relation of the tables before and after; C138 for the reader. Refutation: an earlier entry that overlaps. *Status: partial.* Proved if no other entry overlaps; otherwise a solvable parameter gets the first of them (witness).
* **C142 Only solutions that have converged are saved.** Invariant over histories without convergence; the decision for one command. Refutation: a solution that did not converge after one that did. *Status: partial.* When the table is written is proved exactly; the flag of convergence is never lowered, so later solutions are saved whether they converged or not (witness).
* **C143 A solution is saved for the domain it was made for.** From the domain of the funklet after the request and the row written. Refutation: solving for half of the domain solved for before. *Status: partial.* Proved unless a funklet of a larger domain is still being solved for: then its entry is overwritten (witness).
* **C144 Functions flag their output where an input is flagged.** Induction over the children; broadcasting by C37 and C38. *Status: proved.* 
* **C145 Merging flags adds the chosen bits and loses none.** Invariant over the loop over children. Refutation: one child with a mask. *Status: partial.* What is merged is proved exactly; no bits are lost with several children or a full mask. A single child loses its bits outside the mask (witness).
* **C146 The zero flagger adds its bit where the condition holds.** Exact description of the flags after, by cases. Refutation: other bits set before. *Status: partial.* The flags after are described exactly; flags set before are replaced, not ORed (witness).
* **C147 A reduced value is flagged exactly if all of its input is.** Exact decision of the code's test. Refutations: a mask without bit 0; flags outside the mask. *Status: partial.* Proved for masks with bit 0 and flags within the mask; otherwise false (witnesses). The slices along axes are those of C40.
* **C148 A reduction over children flags a point exactly if all children do.** Invariant: bit i of the scratch flags is set where child i is flagged. Refutation: 31 children. *Status: partial.* Proved up to 30 children; beyond, a shift overflows (witness).
* **C149 Replacing flagged values changes exactly the flagged points.** C144's merging and C38. Refutation: a value constant along an axis of the flags. *Status: partial.* Proved if the flags broadcast to the value; otherwise an exception (witness).
* **C150 Stripping drops derivatives and nothing else.** By cases. Refutation: an element with derivatives and flags. *Status: partial.* Main values stay and derivatives go; the flags of an element with derivatives go too (witness).
* **C151 A multiplexer returns its chosen child's answer.** Exact decision from the polling theorems of C35. Refutation: the chosen child fails. *Status: partial.* The answer is decided outright; if the chosen child fails there is no result at all (witness).
* **C152 Other children do not affect a multiplexer's answer.** From the decision of C151. *Status: proved.* 
* **C153 A sequencer asks its children in order, each under its own request id.** Induction over the children with C29. *Status: proved.* Waits and aborts are not modelled.
* **C154 A sequencer returns its chosen child's answer and all dependencies.** Closed form of the loop. Refutation: a request without cells. *Status: partial.* Proved for requests with cells; without, failures and dependencies of the children are dropped (witness).
* **C155 A sequencer's cache is transparent.** Invariant on the cache; C28. Refutation: a request without cells, then one with cells. *Status: partial.* Proved for histories of requests with cells (smart policy, one parent, one request type); a request without cells poisons the cache (witness).
* **C156 A disabled child is not executed.** C35. Refutation: a sequencer. *Status: partial.* A sequencer executes disabled children (witness); a multiplexer does not.
* **C157 An equation's derivatives predict its change.** Induction over the merged list of parameters with an invariant on the positions in both children's lists; sums over the union of parameters. *Status: proved.* Numbers are rational; steps of 0 are excluded from the law.
* **C158 An equation modulo something uses the nearest representative.** Properties of rounding to the nearest integer over the rationals. *Status: proved.* 
* **C159 An equation's elements are of one type, with all flags and the weight.** Closed form of the loop. *Status: proved.* 
* **C160 An equation keeps the failures of its children.** From the closed form. Refutation: one failed element of a tensor. *Status: partial.* Elements without a value are proved; a failed element becomes one without a value and the failure is lost (witness).
* **C161 An equation without a child's result is missing.** Decision. Refutation: the first child has no result. *Status: partial.* Proved if the first child has a result; if not, there is an exception (witness).
* **C162 A function of tensors is evaluated for every perturbed parameter.** All elements as one list of children of a function (C77), grouped again. *Status: proved.* Flags and cells are left out; the function is taken to fill all elements of its output.
* **C163 Inverting a matrix gives the inverse.** Field arithmetic and the lemma about functions of tensors. *Status: proved.* Values in a field; determinants other than zero. Of several failures one is kept (see C78).
* **C164 Transposing exchanges the last two axes.** Row-major positions; the moves as a permutation. Refutation: two 1 by 3 matrices. *Status: partial.* Proved unless the last but one axis has extent 1: then that axis is dropped (witness).
* **C165 Stokes parameters give the coherency matrix.** Arithmetic and case analysis. Refutation: Q missing, U present. *Status: partial.* Proved with the exact condition for an exception; Q without a value next to U is one (witness). Derivatives and flags are dropped by the code.
* **C166 A rider's commands are performed by the nodes they are for.** Performing as a relation; the model's nested loops equal performing a flat list. Refutation: an empty list of names. *Status: partial.* Which commands are performed is proved exactly; an entry with an empty list of names is for every node (witness).
* **C167 Commands put into a rider reach the nodes meant.** Composition of building and C166. Refutation: a list of entries. *Status: partial.* Proved for commands to all and by index; a list of entries is stored in the wrong field and makes nodes throw (witness).
* **C168 A node is executed by one thread at a time.** Transition system with two mutexes, a condition variable with spurious wake-ups and the executing flag; invariant over all schedules. *Status: proved.* One node; what the body of an execution does is abstracted to giving the state mutex up and taking it again. The mutexes are the recursive ones of the code, held as a whole.
* **C169 Threads at one node do not wait for ever.** Same transition system: progress from the invariant; a measure that decreases. *Status: proved.* One node; evaluating and being stopped are taken to end.
* **C170 The breakpoint flag of a node's status agrees with its breakpoints.** Two threads that read and write one word under different mutexes. Refutation: a schedule. *Status: partial.* Proved if there is no cache or if the calls do not overlap; false for overlapping calls, which hold different mutexes (witness).
* **C171 An execution returns a result or says why not.** Decision logic with outcomes of the callees as inputs; every way through the function. Refutation: storing throws twice. *Status: partial.* All proved except that no exception leaves: if caching a failure throws too, one does, out of a function declared to throw none (witness).
* **C172 A node's status says how the last execution ended.** As C171. Refutations: an abort after a failure; missing data found by the node itself. *Status: partial.* Proved unless the abort flag is up at once or the node itself finds data missing (witnesses).
* **C173 A node's failures are posted as errors.** As C171. Refutation: an evaluation that returns a failure. *Status: partial.* Proved for exceptions; failures returned by an evaluation are not posted (witness).
* **C174 A lock object that says it is locked is locked.** Recursive mutexes as counts per thread, objects as pointers; an invariant that counts. Refutation: TRY on a busy mutex. *Status: partial.* Proved without TRY; with it an object claims a mutex another thread holds (witness). Assignment from an empty object, which dereferences a null pointer, is left out.
* **C175 A wait with a timeout lasts as long as the timeout.** Integer arithmetic of the struct timespec, and the kernel's check of it. Refutation: half a second at half past a second. *Status: partial.* Proved exactly when it holds: if the fractions of a second come to less than a second; otherwise the wait ends at once (witness). Rounding of the double is left out.
* **C176 Read and write locks exclude each other.** Transition system with ghost counts of what each thread has; invariant over all schedules. *Status: proved.* Threads give back what they have and upgrade what they have; the functions are steps from call to return or sleep, as they hold a mutex.
* **C177 Threads that wait for a read or write lock are woken.** Same transition system. Refutations: an upgrade; two readers. Proved: nobody sleeps at a lock nobody has. *Status: partial.* Proved: nobody sleeps at a lock that nobody has, unless a thread is awake in a call. False in general: the code signals one thread, and only when the count of readers reaches zero (two witnesses).
* **C178 The cells of a node's result fit all its children.** Loop over children with an invariant that relates the cells so far to every child compared. Refutation: a child that shares the first child's cells but varies along more axes. *Status: partial.* Proved for the first child with cells, for all whose cells are another object, and if all share one. A child that shares the first one's cells object is not compared and its axes are not noted, so another child's may replace them (witness). Centres and sizes of cells are left out.
* **C179 A node reports the solvable parameters of all its children.** Induction over children. *Status: proved.* Maps as functions from parameter numbers.
* **C180 A caller that polls its children asynchronously is given each child's result exactly once.** A transition system of the parent and any number of workers; invariant on the multiset of queued, running, received and handed out orders; refuted by a schedule with an abort; completion by draining. *Status: partial.* Proved for schedules in which no poll is started while orders of an earlier one are left, in particular if polls are never aborted. False otherwise: a worker still filling an order of an aborted poll drops its result into the next one (witness). Only this node's work orders are modelled.
* **C181 When finishPoll returns, the step-children polled in the background have been executed.** The same transition system; the flag abandon_ that an abort leaves up refutes the full statement. *Status: partial.* Proved if no poll of the nursery was ever aborted and, for who is polled, for the default poll order. False after an abort: the flag that ends the wait is never taken down again (witness).
* **C182 A weighted sum is the sum of its children's values times their weights.** Induction over the children; a zero weight disables the child, whose result is then missed, which refutes the full statement. *Status: partial.* Proved if no child has weight zero; with several weights of which one is zero or left out the node always fails (proved, witness). Exact arithmetic, one cell.
* **C183 A weighted mean is normalised by the sum of the weights, at every evaluation.** Normalisation is idempotent; induction over the history. *Status: partial.* Proved if no child has weight zero; fails otherwise, as C182. Exact arithmetic, one cell.
* **C184 The name of an axis leads back to it.** Induction over the operations; refuted by a map of one name. *Status: partial.* Proved if axes are only added to the default ones; for a map that is set, proved for the axes it names. False in general: names that a map replaces stay known, and axes it leaves out keep theirs (witness).
* **C185 A domain sent as a record is received as the same domain.** Fields are read one by one, induction over them; refuted by a sender with the default names. *Status: partial.* Proved if the sender's names are different and either not the default ones, or understood by the receiver. False otherwise (witness): default names are not sent along. Exact arithmetic.
* **C186 A domain record is accepted or refused, whatever is in it.** Induction over the fields; refuted by a field called 8. *Status: partial.* Proved for records without fields called by a number above 7. False otherwise: the range is written behind the end of an array (witness).
* **C187 Of two processes that hear of each other's servers exactly one makes the connection.** Case analysis over the decision, with the order on peer ids total. *Status: proved.* The decision for an advertisement; that advertisements arrive is not modelled.
* **C188 The connection manager never does anything undefined.** Transition system; refuted by a server that cannot be reached; proved without advertisements. *Status: partial.* Proved for clients that do not look for servers, or hear of none. False otherwise: a connection that is given up is removed while the list is gone through (witness). stop() is not modelled.
* **C189 A configured peer is tried again until it is connected, for ever.** Invariants on the times kept in each connection, by induction over the history. *Status: partial.* That a configured peer stays on the list is proved without advertisements, and false with them (witness): one makes it a peer that is given up. That peers on the list are tried again, and what comes of it, is proved for all histories.
* **C190 Connections are listed once, own a socket only while being made, and are looked after.** Induction over the history. *Status: proved.* For all histories without stop().
* **C191 A value that Python sends to the kernel and reads back is the same.** Mutual induction over values; the pending Python exception is part of the state. *Status: partial.* Proved for plain values of any depth (32-bit integers, no NUL, native byte order, restrictions on nested sequences). False otherwise, with a theorem for each kind of failure. Floating point numbers are names of values.
* **C192 Fields of a record are converted independently of each other.** Induction over the fields. *Status: partial.* Proved: fields do not affect each other, in either direction. False that every field arrives: one that cannot be converted is dropped (witness).
* **C193 Attributes of a message are carried over exactly.** Case analysis. *Status: partial.* Proved if a sender is set whenever an addressee is. A message with an addressee alone cannot be converted (proved).
* **C194 A kernel value that Python reads and gives back is identical.** Mutual induction over values. *Status: partial.* Proved for stable values of any depth. False otherwise (witnesses): scalars of other types than int, double and double complex change type, and long integers are cut.
* **C195 Columns of a data tile have memory of their own.** Induction over the columns for the layout, and an invariant of all histories. *Status: partial.* Proved for histories in which copy, setTileId and wcolumn are applied only to tiles that do not share their memory. Tiles without rows but with columns are undefined behaviour (C197_new_empty).
* **C196 An assignment to an element of a tile changes that element only.** An invariant relating arrays, pointers and blocks, by induction over the history. *Status: partial.* Proved for the histories of C195. False otherwise: after copy, setTileId or wcolumn on a tile that shares its memory, its arrays still refer to the memory of the other tile (witness).
* **C197 Copies of a tile are equal and then independent.** The same invariant. *Status: partial.* Proved for the histories of C195, whatever is shared; false otherwise (witness). A tile without rows cannot be copied, and making one with columns is undefined behaviour (proved).
* **C198 A tile that is sent arrives as it was when it was sent.** The same invariant, with messages as owners of blocks. *Status: partial.* Proved for the histories of C195; false otherwise (witness). Blocks are passed on by reference, as within one process.
* **C199 Rows copied from one tile to another arrive in the rows asked for.** Copies of bytes as a list of jobs with disjoint targets, then the place of each element. *Status: partial.* Proved for columns of one element per cell, and for whole tiles with any columns. False for rows of array columns: bytes are copied as if a row's elements were together (witness). Two starts are not checked (witnesses).
* **C200 Rows can be added to a tile without loss.** As C199. *Status: partial.* Proved for columns of one element per cell; false for array columns, whose elements are out of order after rows have been added (witness).
* **C201 A change of format keeps the columns both formats have.** As C199. *Status: partial.* Proved if columns whose shape stays keep their type. False otherwise: the old column's bytes are copied over the new one, and beyond its end if the new elements are smaller (witness).
* **C202 A saved configuration loads back.** The reading of one line in the middle of a file, then induction over the settings. *Status: partial.* Proved for names without blanks not starting with '#', one-line values not starting with white space, and at most 1022 bytes of both. False otherwise (witnesses).
* **C203 The last source of a setting counts.** A fold of settings has the last one for each name. *Status: partial.* Proved if lines of files are at most 1023 bytes long and without zero bytes; longer lines are read as several (witness). Merging one configuration into another with override does not override (proved).
* **C204 Options of the command line.** Induction over the arguments. *Status: proved.* Stated as the code decides: an argument that starts with the option counts. So an option is also found in a longer one, and in the value of another (witnesses).
* **C205 A node's children are those named in its definition.** Induction over the fields; a field for a child does not touch others. *Status: partial.* Proved if no two fields of the record mean the same child; otherwise the last one is taken silently (witness). Of a class only the arguments of the constructor are modelled.
* **C206 A batch of nodes that is created without errors is the tree that was defined.** Creation: invariant over definitions. Linking does not change which nodes exist, so all nodes see the same forest. *Status: partial.* Proved for a batch on an empty forest. A further batch initialises all nodes again and always ends in errors if there is a node with a child or stepchild (C206_again).
* **C207 A node that cannot be set up does not keep others from being set up.** Initialisation of a node depends only on itself and on which nodes exist. *Status: partial.* Proved if the batch has a result. A reference to the index just beyond the last node reads beyond the end of the table (witness).
* **C208 A node depends on what it was told to depend on.** Invariant between the node and what was asked for, by induction over events. *Status: partial.* Proved where the definition does not have both dependencies and a mask, lists from Python are not empty, and records are refused only while the node's dependencies are those of its record and no mask was given. False otherwise (witnesses).
* **C209 Vectors behave as lists that share nothing.** Refinement of vectors with shared header blocks by lists, by induction over operations. *Status: partial.* Proved for all sequences of operations that make no vectors of size 0 and do not resize scalars to size 1. False of the code otherwise (witnesses).
* **C210 A change of resolution is the one asked for.** Invariant between the node's members and the last settings, by induction over the history; exact formulas for the edges of new cells. *Status: partial.* Proved for all histories in which earlier requests had at least as many cells as are to be joined. False otherwise (witness); other axes are lost; a single number of cells is undefined.
* **C211 Integrated values are means over the new cells.** Correctness of the binary search by induction; the edges of a new cell are those of the old cells that meet it, with their parts as weights; sums over edges are sums over cells. *Status: partial.* Proved for all cells and values if the numbers of cells differ, one old cell is not divided and the values are not constant. False in the other cases (witnesses; dividing one cell is undefined for all cells and values).
* **C212 Flagged values do not count in integrated values.** The same edges as for C211; counts and sums over filtered lists of edges as sums over pairs of cells; bits of the union by induction. *Status: partial.* Proved for all cells, values, flags and policies, with old cells that end where the new one starts counted as well. False without them (witness); flags of values with one row or column are ignored (witness).
* **C213 The PSVTensor node sums the visibilities of all sources.** The table of values is filled injectively (induction over perturbations, planes and children); products by induction over the pairs; sums by induction over sources. *Status: proved.* For all children of the documented dimensions, all numbers of sources and of pairs of Jones terms, over any commutative ring and for any exponent, smearing and shape functions.
* **C214 Perturbed values of the PSVTensor node.** Invariant of the loop over perturbations: the main values kept are right, and so are the products that no earlier perturbation changes; witnesses where a wrong one is used. *Status: partial.* Proved for every parameter that does not change uvw, does not change brightness when there are no Jones terms, and is not preceded by one that changes an earlier product. False in each of these three cases (witnesses).
* **C215 The shapes of sources can be left out.** Evaluate the check of dimensions for three children; corollary of C213 for a fourth child of one element. *Status: partial.* False: with three children the node always fails. Proved for a child of one element in place of the shapes.
* **C216 Messages between the processes of a parallel server.** Induction over the blocks for the loop of the decoder, with the blocks already read as a parameter; the same for a prefix; a witness of 12 bytes for the malformed message. *Status: partial.* Round trip, size of the buffer and refusal of truncated messages hold for all headers and objects. That no malformed message is read past its end is false for sizes of 2^31 and more (witness), and proved for those below.
* **C217 Calls of remote nodes return what the remote node did.** Invariant: at most one message or work order carries the number of a call, and whoever has it has the address of an endpoint that waits for this number. *Status: proved.* For any number of processes and all histories of calls, thread steps and outcomes of nodes.
* **C218 Calls of remote nodes come back, and errors are reported.** A waiting call has exactly one message or work order (invariant), so in an idle system nobody waits; a weight of the messages falls with each thread step; witnesses for calls that are dropped. *Status: partial.* False for processCommand and for calls that fail in a communicator thread, e.g. for unknown nodes (witnesses). Proved for all others; all reports of errors arrive.
* **C219 Settings of remote nodes.** Invariant: the settings made are those accepted followed by those on the way, and the requests on the way are numbered in increasing order; witness for an ignored command. *Status: partial.* Proved for setState, for all histories in which the calls are for existing nodes and do not throw. False for the other commands without a reply, which the receiver ignores (witness).
* **C220 Commands to the server are answered.** Invariant over all steps: the entries of the queue are those of the unanswered commands in order of arrival, every other event has its replies; witness for halting. *Status: partial.* For all histories of well-formed events and all schedules of the two threads. False for commands that wait when the server is halted: they get no reply (witness).
* **C221 No event ends the server.** By the invariant of C220 for well-formed events; two witnesses for others. *Status: partial.* Proved for well-formed events. False for the event Command without a name, and for records with fields of a wrong type (witnesses).
* **C222 The state that clients are told.** Invariant over all steps. *Status: proved.* For all histories of well-formed events and all schedules.
* **C223 Requests to abort an execution.** An execution is tracked by the number of its command, which is never run again (C220); witness for a request before the flag is cleared. *Status: partial.* Proved once the execution has cleared the flag at its start, and that old requests do not leak into it. False for a request between the announcement of the execution and the clearing (witness).
* **C224 The list of nodes a client holds.** Invariant: the number counts the changes, and a list with the current number is current or a change is under way; witness for a change between the copy and the number. *Status: partial.* Proved when no change falls between the copy of the list and the reading of its number, and for fewer than 2^31 - 2 changes. False otherwise (witness).
* **C225 Rows of a measurement set in the tiles that are read.** Induction over the sizes of tiles and the timeslots; witnesses for repeated rows and increments of time. *Status: partial.* Soundness, uniqueness and shape for all sets and selections; completeness when all timeslots are read, for rows that are the only ones of their baseline and time. False for duplicates (witness); with an increment of time reading can fail (witness).
* **C226 Sizes of tiles.** Invariant of the loop over the rows that exhibits the pieces; witnesses for one row and for rows not in order. *Status: partial.* Proved for wanted rows in order of time and all timeslots read; no write outside of memory when two rows share a time. False for one row per tile (witness) and for tables not in order (witness).
* **C227 Range of selected channels.** Case analysis; witnesses at the number of channels and before the first one. *Status: partial.* Proved unless a limit is the number of channels, or the last one lies before the first channel; false there (witnesses).
* **C228 Data written back to a measurement set.** Induction over rows of tiles and over channels; the round trip from C225. *Status: proved.* For all tables, tiles and ranges of channels within the data, in either order.
* **C229 Flags read from and written to a measurement set.** Case analysis on options, bit by bit; witness for bits used but not written. *Status: partial.* For all masks and flags. False when BITFLAG is used but not written: flags of cells do not get to FLAG (witness).
* **C230 Measurement sets written in the order of rows.** Invariant of the map from rows to tiles; refinement of the writer in C228; witness for rows not in order. *Status: partial.* Proved when tiles of another number have later rows of the table, so for tables in order of time. False otherwise: rows of earlier tiles are written again with other data (witness), or from a tile that does not exist (witness).
* **C231 Messages are delivered to channels once.** Invariant: what is remembered about a message is right while it is in the queue; induction over histories. *Status: proved.* For all channels, arrivals at any place of the queue and histories of getEvent without hasEvent (see C232).
* **C232 To ask for an event does not take it.** The invariant of C231; witnesses for an event that is lost, and for an old event given in place of a new message. *Status: partial.* The answer of hasEvent is right, and nothing is lost unless it has found an event. If it has, the event is taken from the queue and lost (witness); a new message at the same address is then lost as well (witness).
* **C233 Ids of events that are posted and received.** Case analysis; induction over the prefix for the way back; witness for a disabled event. *Status: partial.* Ids for all maps and events, and their way back through a channel with the same prefix. An event disabled in the map is said to be bound although it is not posted (witness).
* **C234 Events from files.** Induction over requests; witness for the first event after the file was read. *Status: partial.* Order and completeness for all files and masks. The mask is ignored for an event that has just been read from the file (witness).
* **C235 Histories keep the latest items.** Induction over histories; invariant for a fixed limit. *Status: proved.* For all histories of results, commands and limits.
* **C236 Collected data has one entry for each child.** Induction over children. *Status: proved.* For all results of children.
* **C237 Joined data keeps labels with their values.** Induction over children for both loops. *Status: proved.* For all plot records of children, with and without labels and attributes.
* **C238 A flag shared by sources of events.** Invariant on the bits of the word, with the sign of 1<<31 in mind; induction over histories. *Status: proved.* For all histories of calls, one at a time; waiting itself is not modelled.
* **C239 Splitting of strings.** Strong induction over what is left; uniqueness of pieces. *Status: proved.* For all strings and separators.
* **C240 Nodes for grids give the centres of cells.** Position of a point in an array with one axis that is not degenerate. *Status: proved.* For all cells and axes.
* **C241 Locations of extremes.** Induction over the points in the order in which they are stored; witness for a value with fewer axes than the cells. *Status: partial.* Proved along the axes of the child's value, if it has one to four. False for the other axes of the cells, where no location is set (witness), and for values with more than four axes.
* **C242 All sources of a patch are in its image.** Bounds on truncation over the rationals; witness for sources along an axis. *Status: partial.* Proved if some source has l other than 0 and some source has m other than 0. Otherwise the spacing of pixels is 0 and a NaN is converted to an integer (witness).
* **C243 Images of patches show their sources.** Induction over the loops over sources and channels; witness for two sources in one pixel. *Status: partial.* A source further than a pixel from the others is shown with its own value, and nothing else is shown. Of sources in the same pixel only the last is shown, so the sum is wrong (witness).
* **C244 Logarithmic axes of polynomials.** Signs of quotients over the real numbers; witness for a grid that is not in order. *Status: partial.* Proved for grids between their first and last coordinate, with a list of scales. Other grids may have negative coordinates whose logarithm is taken (witness); without a list of scales an uninitialized scale is used.
* **C245 Domains of solving for logarithmic polynomials.** Field arithmetic with Real.log; witness for an axis with negative coordinates. *Status: partial.* Proved if logarithms can be taken at the ends of all axes with a scale. If not, the other axis gets a wrong offset and scale (witness).
<!-- PLAN-END -->

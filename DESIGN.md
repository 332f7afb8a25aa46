# Formal model of FreeRTOS-Cellular-Interface in Lean 4 - design

The model is in `lean/Verif`, the list of properties in `properties.jsonl`, their status in `MANIFEST.json`
(regenerated by `tools/manifest.py` from the theorem names and `tools/notes.json`), the seeded-bug
experiments in `seeded/LOG.jsonl` (chosen by hand first; then, with the field `kind`, a systematic mutation of all model
definitions: constants, comparisons, branches, dropped updates, negated conditions, enum values, texts. Of 3062 edits 276 did
not typecheck, 2702 broke a proof - those first caught by an `example` only were re-run with all examples removed and broke a theorem too -
and 84 survived: reviewed one by one, those that changed an observable effect led to tightened theorems, the rest change nothing observable, e.g. a
member overwritten before it is read, a guard that callers have already tested, the rank of a proof).

## Modelling conventions

* Bytes are `UInt8`; a C string is a `List UInt8` with no 0 byte. Where memory safety is the
  property, an object is a `List UInt8` of fixed length and pointers are offsets into it; every read
  or write outside gives the distinct outcome `none` (undefined behaviour), never a default value.
* A function that mutates through a pointer returns the new value. A loop is structural recursion,
  or recursion on a measure; loops that need not terminate take fuel and running out of fuel is a
  distinct outcome.
* Status enums are Lean inductive types with the same enumerators (`Types.lean`).
* Transport (`send`, `recv`), platform (mutex, queue, event group, malloc, thread creation) and user
  callbacks are parameters: the theorems quantify over their results (subject to stated contracts).
* Concurrency is an interleaving transition system whose atomic steps are critical sections or single
  unprotected accesses to shared members.
* Logging is not modelled.
* Namespaces: models in `Cellular` (`Cellular.AtCore`, `Cellular.Pktio`, `Cellular.Conc`, ...), the vocabulary
  used in statements in `Cellular.Spec`, property theorems in `Cellular.Props`. A property theorem is named
  `Cnn_...`; the suffix `_partial` marks a theorem that proves part of its property; `..._witness...`
  theorems exhibit an execution of the model on which the full property fails.
* Beside the theorems, `example`s exhibit concrete cases that meet their hypotheses.

## Layout

| modules | models | properties |
|---|---|---|
| `CStr`, `Types` | bytes, memory objects, C library string functions, enums | base |
| `AtCore` (memory level), `AtStr` (value level), `AtCoreSpec`, `AtCoreLemmas`, `AtCoreRefine(2)`, `AtCoreProps`, `AtStrtoi`, `AtNumber` | cellular_at_core.c | C01-C09 |
| `Pktio`, `PktioSpec`, `PktioSafe`, `PktioSafeData`, `PktioRefine`, `PktioRecv`, `PktioOnce`, `PktioDataSpec`, `PktioData`, `PktioProps` | cellular_pktio.c: receive buffer machine, classification, responses, data mode, sending | C10-C18 |
| `Urc`, `UrcSpec`, `UrcProps`, `UrcTight` | URC part of cellular_pkthandler.c | C19-C21 |
| `Conc`, `ConcInv`, `ConcOwn(2,3)`, `ConcHist`, `ConcExplain`, `ConcPend`, `ConcExec`, `ConcProps`, `ConcLive` | requests of cellular_pkthandler.c and the receive task, interleaved | C22-C27, C62 |
| `RegConc` | the registration data shared by receive task and callers, interleaved | C63 |
| `Signal`, `SignalProps` | signal conversions, status translation | C28-C30, C39 |
| `Sockets`, `SocketsProps` | socket table, options, callback registration | C31-C33, C59, C60 |
| `Lifecycle`, `LifecycleProps`, `LifecycleLive` | library init, open, cleanup, start/shutdown interleaving | C20, C34-C37, C65, C66 |
| `Reg`, `RegProps`, `RegExact` | cellular_3gpp_urc_handler.c registration texts | C40-C44 |
| `Close`, `CloseProps` | API calls of any number of tasks interleaved with `Cellular_Cleanup` and the end of the receive task | C81 |
| `AtRefuse` | refused inputs, hex decoder on any text | C06, C68 |
| `Locks`, `LocksProps` | lock skeletons of all API functions and of the receive task | C69 |
| `Wire`, `WirePos`, `WireProps`, `WireApi`, `WireSession` | requests over the byte stream: `Pktio` and `Api` composed | C70, C71 |
| `Dispatch` | `_Cellular_HandlePacket`: from received bytes to the registered callbacks | C72 |
| `PktioInput*` | receiving with an input buffer callback | C73 |
| `RespHeap`, `RespHeapProps` | response records and URC copies as blocks of an explicit heap | C74 |
| `ConcUsr` | the interleaving model with the user data pointer and length of a request | C75 |
| `RegWire` | registration reports through the whole receive path: `exchange`/`reads` events to `_Cellular_HandlePacket`, port table, parser, record and event callback; the response callback of the registration queries | C76, C44, C55 |
| `Robust` | the wire model with an arbitrary modem: only the transport's contract (`Contract`, `clipped`) is assumed | C77, C21 |
| `AtDelims` | `Cellular_ATGetSpecificNextTok` for any delimiter string; `Cellular_ATcheckErrorCode` refines its version for texts | C79, C07 |
| `Bytes`, `BytesProps`, `BytesInv`, `BytesSim`, `BytesThm`, `BytesData`, `BytesSafe`, `BytesSeq`, `BytesOwn`, `BytesPieces` | threads of `Conc` interleaved with the byte-level receive task of `Pktio`, step by step; memory safety; the thread invariants of `Conc` in all executions; simulation by `Conc`; data announced by prefix callbacks; the division of the stream into lines and data blocks; consequences and witnesses; without interference it is the event of `Pktio` | C82 |
| `ConcWhole`, `BytesWhole` | the same models: completeness and order of answers | C83 |
| `ConcTidy`, `BytesTidy`, `BytesSilent` | the same models: recovery from time-outs | C85 |
| `BytesBusy` | the byte-level concurrent model: the receive task gets back to listening | C86 |
| `ConcHeard`, `BytesCalm`, `BytesHeard` | the concurrent models: no answer is overlooked | C87 |
| `BytesStrip`, `BytesAnswer` | the byte-level model with data prefix callbacks against the line model without them: answers with data | C83, C85, C87 |
| `RegCall` | `Cellular_CommonGetServiceStatus` with `queryNetworkStatus`, `atcmdQueryRegStatus`, `atcmdUpdateMccMnc` over the byte stream, registration codes coming in at any time | C84 |
| `PktioPrompt` | prompts in the byte stream: a data send prefix callback as an input callback (`asInput`), lines and prompt of a stream in any pieces | C78 |
| `WireData`, `WireDataProps` | data sends over the byte stream: `_Cellular_AtcmdDataSend`, `_Cellular_TimeoutAtcmdDataSendSuccessToken`, `_Cellular_DataSendWithTimeoutDelayRaw`, `_Cellular_PktioSendData` | C78 |
| `PktioDataInv`, `WireRecv`, `WireRecvProps` | data receives over the byte stream: `_Cellular_TimeoutAtcmdDataRecvRequestWithCallback`; sessions of requests, data sends and data receives | C80 |
| `PktioExact` | exact law of the idle receiver for every sequence of reads (refused lines, full buffer); exact law of the receive loop | C10, C12 |
| `TokLemmas`, `Api`, `ApiProps`, `ApiTime`, `ApiQuery`, `ApiPsm`, `ApiTight`, `ApiPsmExact`, `ApiTimeExact`, `ApiExact`, `ServiceExact`, `AtExact`, `ApiRaw`, `ApiEnd` | cellular_3gpp_api.c, raw command | C38, C45-C58, C61, C64, C67 |

## Per-property plan: what is modelled, how it is proved

* C01-C03, C05, C06, C09: byte-buffer model of each function; refinement to a list function
  (`filter`, `dropWhile`, ...) plus frame condition; UB-freedom is part of the same theorem.
* C04: token loop refines `splitOn ','` (own spec), trailing empty field dropped.
* C07: termination for lists up to 255 keys, non-termination (fuel never suffices) beyond: partial.
* C08: `strtol` model; round trip for int32; wrap witness: partial.
* C10, C12, C13, C15: the concrete receive buffer machine (`Pktio`: one memory object, read position,
  partial data, left-over lines) refines an abstract receiver without buffer, a function of the sequence
  of lines (`PktioSpec`, `PktioRefine`); histories of reads by induction (`PktioRecv`).
* C11: invariant of the machine over all histories of reads => no step has outcome `none`.
* C16: refinement to a parser of streams into lines and data blocks (`PktioDataSpec`), any cut into reads.
* C14, C17, C18: direct statements about classification and the send path.
* C19-C21: lexicographic order, binary search correctness, URC splitting.
* C22-C27: interleaving model of any number of callers and the receive task (`Conc`). Statements are about
  the history (list of events) of an arbitrary execution; invariants by induction over executions; monitors of histories
  (`Spec.serial`, `Spec.own`) are used in the proofs and translated back to plain statements about lists of events
  (`ConcExplain`). Witnesses are executions computed by a scheduler proved sound (`ConcExec`).
* C28-C30, C39: arithmetic / decision tables over the complete input type.
* C31-C33: table as `List (Option Socket)`; invariants by induction over histories; race witness.
* C34-C37: resource ledger model with a fault oracle for every creation step; shutdown race as
  interleaving model.
* C38: every API function modelled as a program over an abstract `request` action; closed library
  => no action.
* C40-C44: state-passing model of the registration parser; the exact law for every text (`RegExact`) by induction over the fields against a table of meanings.
* C45-C58, C61: parsers and command builders as list functions; round trips with spec-side encoders; then the
  complete API function for a given answer of the modem (`ApiTight`).
* C59-C60: record updates; histories by induction.
* C62: measure on the steps of one request that every step of its own decreases and no step of another raises.
* C63: interleaving model with arbitrary intermediate writer states; invariant over all executions.
* C64: the raw command as a program over `request`, for every answer of the modem.
* C68: case analysis on the string validation shared by all helpers.
* C69: lock-order ranking on skeletons (`Code.safe`, sound for all runs), wait order on flags, progress by descending rank; total number of actions decreases, so every maximal schedule ends. Witness schedules for the callbacks that break it.
* C70: composition of `sendAtCmd`, `rxEvent` and `request`: induction over the history of requests with the invariant "at rest, at the end of a line, position bounded by what arrived since the last answer"; each request by C15's refinement. Then the C47/C48/C51/C56/C58 theorems on top, and a simulation for all 13 modelled API functions and all sequences of calls (`C70_session`).
* C71: corollary of C70; three kernel-evaluated executions for the failing case.
* C72: C10's delivery of lines (and C15's response with unsolicited codes in between) composed with C19/C21's lookup, message by message.
* C73: second refinement of the buffer machine, to a receiver that offers the text to the callback; then induction over the pieces (gap, frame, line) of a stream with the invariant "kept bytes and unread stream together are a sequence of pieces".
* C74: the receive machine again with `_saveData`, `_Cellular_AtResponseNew/Free` as pointer programs on a heap; simulation of `Pktio` with a separation invariant ("the blocks of ours are exactly the record and its chain").
* C75: `Conc` extended by `pPktUsrData` and `PktUsrDataLen` and by the separate unprotected reads of the call's arguments in any order; invariant on top of that of C25 (the owner stays in its command step while the call is evaluated).
* C76: specification of a report (`Report`, `Report.update`, `Report.events`) independent of the parser; every line of the stream is followed through classification (C14), delivery (C21, C72), parser (C44) to the record; responses of registration queries through C55; induction over the requests on top of `Rest` (C70). Partial: see MANIFEST note.
* C77: memory-safety invariant of C11 through every request and every read between requests (`InOrder`), NUL-freeness of every message through the receive loop, exact condition for `_processUrcPacket` to be defined (`C21_defined_iff`), totality of every API function for arbitrary answers; composed over sessions. Any supply of bytes is made into a modem within the contract by cutting its pieces (`clipped`).
* C78: a receive side with a prompt callback behaves as one with an input callback that makes the same change (`rxEvent_prompt`), so the refinement theorem of C75 applies; induction over the pieces for the position of the prompt (`readsCb_prompt`); then the command step, the reads between, and the data step as a pending request (`Rest` is kept), and induction over the script. `C78_consent` needs no assumption about the bytes: events only grow (`Kept`).
* C79: the text is `lead ++ tok ++ d :: rest`; one theorem for each form of it, by evaluating `strtok` on it; together they are exhaustive.
* C80: the safety invariant of C15 and the refinement of C16 together, for one read, without assuming that it is handled (`rxEvent_all`), by induction for a list of reads (`reads_all`); induction over the response for the elements it parses into (`talk_elems`); then `Rest` is kept (`rest_of_data`), and induction over the session.
* C81: interleaving model (`Close`): any number of tasks making requests, one task cleaning up, the receive task; one invariant (`Inv`) over schedules, relation `CallRel` for the outcomes of a step; `Late`/`OneMore` for what a task may still do; a rank of cleanup and receive task for progress.
* C82: product of the threads of `Conc` and the receive task of `Pktio`, cut at every access to a shared member (`Bytes.next`); one invariant for the buffer (`BInv`), one for text and history (`TInv`: collected items are the texts of the numbered lines, unread text + received lines = lines of the stream, recorded callback texts); every step is zero or more steps of `Conc` from the abstracted state (`absSt`, `bytes_sim`), so C22-C26 carry over; what the receive task may do to the shared members (`RxMove`) keeps the invariants of `Conc` without any assumption (`bytes_inv`); with callbacks that announce data the buffer invariant (`PcD`) holds until a line with announced data is not collected (`Late`), which - without time-outs, and with headers that fit their commands - happens only after a header for which no request waits (`Stray`); with the threads at rest the steps of the receive task compose to one `rxEvent` of `Pktio` (`C82_alone`); with data prefix callbacks the stream is divided, without reference to buffer and reads, into lines, header+data blocks and prompts (`Spec.Divided`; for each port the specification says which headers and which prompt its callbacks recognise: `Spec.Recogniser`, `Spec.Prefixes`, and `DataFns`, `Prompts` tie them to the C functions), every place of the receive task is a place in such a division (`WInv`), and callbacks are given exactly the texts of the pieces numbered in the log (`C82_pieces`). Where the port's handler refused a line, bytes may be missing directly after it (`Divided.refused`), nowhere else. Results and callbacks (C23-C25) do not depend on texts: the monitor of `ConcOwn` accepts the history of every execution over bytes in which nothing timed out, whatever port, prefix callbacks, overflow (`BytesOwn`: each step of the receive task is matched with a step of `Conc` from a state that differs only in texts and history).
* C83: the specification of an answer (`Want`, `Answered`) is stated on the lines received between the sending of the command and the result; invariant `Whole` (tracks, for the step in progress, the lines received since it was sent, and that the response record holds exactly the kept lines of contents among them: `Gathered`) over all steps of `Conc`; then the lines are numbered consecutively (`recvs_range`) and the simulation of C82, refined to silent modems (`bytes_quiet`), carries it to the byte stream.
* C84: one request (`ask`) = what arrived before it, the exchange, what arrived meanwhile; invariant `Attached`: the record is that of all reports heard (`heard`, `told` of C76) and the packet layer rests; the reply is that of `Speaks` and, if it has lines, they are the answer lines of `Tells` (`exchange_reply`: the two views of the same bytes agree), so the query succeeds exactly if there are any; then the call, case by case.
* C85: the invariants of C23-C25, C75, C82 and C83 (`Inv2`, `Whole`, the user data invariant) take a flag `tol`: with it, histories may contain time-outs as long as every state in which a request ends is `EndsClean` (nothing queued, collected or being worked on). C85_silence derives this from the events alone (`SilentTimeouts`: no line received from the sending to the return of a request that timed out) by the invariant `Still`; so the assumption is one about the modem, not about the library; C85_bytes_silence does the same over the byte stream, for all ports, callbacks and buffers (except after undefined behaviour of a port's callback, state `bad`). The examples execute a late answer after a time-out and unsolicited codes around one.
* C86: a measure `workLeft` (14 for each byte of the text in hand, plus the place within the iteration) that every step of the receive task makes smaller unless it starts to listen, and that no step of another task changes; `_preprocessLine`, `_handleData`, `_getNextLine` never leave more text than they were given, and an iteration takes at least one byte. Assumption `SendSane`: the data send prefix callbacks do not claim more text than given (the code does not check it). Callbacks return (one step each). Termination in `crashed`/`bad` counts as listening here; that these are not reached is C11 and C82.
* C87: the invariant `Track` of C83 says more than C83 needs: where nothing is queued for a waiting request, the receive task has gathered all lines so far and none of them ended the answer, or it is at work on the one that did, or it refused a line (`RefusedLine`: a line without a place in the answer, by the tables and the type alone, that the port's handler rejects). Time-out steps need an empty queue. Over the byte stream: C82_all_lines (the lines taken up are those of the stream when the receive task waits). Witnesses for both exceptions. Over the byte stream, as long as no line was refused (`lost` is false), the execution is also one of a port whose handler refuses nothing (`calm_run`), so that the exception disappears.
* C83, C85, C87 with data prefix callbacks, of data receives and of data sends (`BytesStrip`, `BytesAnswer`): every byte-level execution, up to the first late data, corresponds to an execution of the line model in which the requests have no prefix callback and the events of these callbacks are left out (`strip_run`; a header counts as the line it is, a prompt as the line its callback shows). The theorems of the line model then say which lines are the answer, and the division of the stream into pieces (`C82_pieces`) says which bytes these and their data are. The statement is made at the state just after the callback ran (`callback_state`) and carried on to any later state. Specification: `Spec.AnswerPieces`.
* C67: what each query returns when one of its commands is unanswered, from the request layer laws.
* C65, C66: invariant and measures over all schedules of `Lifecycle.hsStep`; busy-modem witness for every length.

No property of the list was found to be inexpressible. The ones that are false of the code in some cases have status
"partial": the theorem carries the exact condition, and a witness theorem shows an execution violating the claim
outside it.

## Trusted base

* Lean's kernel (all theorems are replayed by it; `decide +kernel` is kernel reduction).
* Axioms: every theorem depends on at most `propext`, `Classical.choice` and `Quot.sound`. There are no axioms of our own and
  no compiled evaluation (checked by collecting the axioms of every theorem in the namespace).
* The reading of the C code into the definitions: each definition cites file and lines. This correspondence is by
  inspection, not by proof.
* C semantics assumed: 8-bit bytes, two's complement, `int` 32 bit; `long` is a parameter where it matters
  (`LONG_MAX` >= 2^31-1); C library functions as in the standard ("C" locale), modelled in `CStr`.

### Modelled

* cellular_at_core.c: all functions.
* cellular_pktio.c: line splitting and buffer management (`_Cellular_ReadThread` loop body: `_handleRxDataEvent`,
  `_handleLeftoverBuffer`, `_getNextLine`, `_preprocessLine`, `_preprocessInputBuffer`,
  `_handleAllReceived`, `_processUrcPacket`, `_handleMsgType`, `_handleUndefinedMessage`, `_handleDataResult`), classification, processing of lines by command
  type, `_Cellular_PktioSendAtCmd`, prefix storage; the task's start and end as part of `Lifecycle`.
* cellular_pkthandler.c: URC lookup and delivery, the five request functions, two-step data send, response
  hand-over (`_convertAndQueueRespPacket`), URC table check.
* cellular_common.c / cellular_common_api.c: library init/cleanup with every failing step, socket table, socket options,
  callback registration and invocation, signal conversions, status translation.
* cellular_3gpp_urc_handler.c: all parsers of registration texts, operator texts excepted where stated in `Reg`.
* cellular_3gpp_api.c: all public functions (as programs over `request`) and all response callbacks.

### Not modelled

* Logging; FreeRTOS / platform implementation (mutexes, queues, event groups and threads are given by their contract).
* Modem ports (`Cellular_Module*`), the comm interface driver; they are parameters.
* In `Conc` (not in `Bytes`): the receive buffer and binary data items (subject of `Pktio`), `_Cellular_PktHandlerCleanup` during a
  request (subject of `Close`), the user data pointer `pPktUsrData` (raced like `pktRespCB`), the second of two prefix pointers being changed
  inside `_getMsgType`. Granularity: each unprotected read or write of a shared member is atomic and memory is
  sequentially consistent.
* In `Pktio`: other threads; the command type and prefix are inputs of each step.
* In `Wire`: requests are made one at a time, no read between the check of a result and the end of a request; what unsolicited codes do to the library is the subject of `Urc` and `Reg`.
* The per-call mutexes around library data in the API models (callers are serialised there).
* Numbers of entries, lengths etc. are unbounded naturals unless the code's type limits them where it matters (then the
  limit is modelled).

## Findings (behaviour of the code the proofs turned up)

Each has a witness theorem.

* `Cellular_ATRemoveTrailingWhiteSpaces` leaves white space in strings of at most two characters and in all-white ones (C02).
* `Cellular_ATcheckErrorCode` never returns for 256 or more keys without match (C07). `Cellular_ATStrtoi` reports out-of-range numbers as
  success (C08). Hex decoding needs one byte more than it writes (C06).
* Receiving: lines above 256 characters lose their prefix (C14, C21); an idle line that nobody accepts drops the following lines of
  the same read (C10); a read that exactly fills the buffer leaves bytes unread and resets the position while a
  response is pending, so that lines of that response are altered or lost (C12, C13); a data header that arrives after its command
  completed dereferences NULL (C11); a data block that overflows the buffer is forgotten but its announced length
  is kept (C16); a response prefix of 32 characters or more is stored without terminator (C18).
* The library accepts an unsorted URC table although the check finds it (C20).
* Requests: neither the queue nor the partial response is cleared when a request starts, so after a timeout the late
  result (C23) and old lines (C24) reach the next request; `pktRespCB` is read twice without the lock: call through NULL,
  call after return, call of the next request's callback with the old response (C25); a refused data send leaves a command
  pending (C26); a fetched prefix callback may run after its request (C27); short sends of commands are ignored (C17).
* Deterministically, without any race: the part of an answer that arrived before a time-out becomes (part of) the answer of the next request, or makes a correctly answered one time out (C71).
* Input buffer callback: it is not asked again before a line is looked for, so two frames in one read, or a frame followed by a
  line end, are misunderstood - depending on how the stream is cut; and its error clears the buffer under the lines collected for a
  pending command, which then completes with other text (C73).
* Positive dBm values give 255 bars (C28), the invalid marker gives one bar (C29).
* Sockets: creation and removal are not protected against concurrency (C32), removal of a freed socket reads it (C33).
* Init: a failing modem module leaves a dangling handle (C36); the receive task uses the context after cleanup (C37);
  API calls overlapping the cleanup can use the closed transport and the freed context, the status checks do not exclude it (C81).
  A data receive that times out after its prefix callback announced the data and before the header line is classified leaves `dataLength` set without a response record: the next bytes are appended to a NULL response (C82, `C82_data_timeout_witness`).
* Registration: see C40-C42, C44 notes in the manifest. PSM: illegal fields masked (C47). eDRX: more than four lines overrun the
  caller's list (C48). SIM lock: every locked state is reported unknown (C51). COPS without operator is a success (C54);
  failed queries of the service status are a success (C55); network time with missing fields may be a success (C56); an IP address
  as long as the buffer is not terminated (C57).

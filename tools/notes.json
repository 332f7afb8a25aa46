{
 "C01": {
  "note": "Proved at byte level with frame condition."
 },
 "C02": {
  "status": "partial",
  "note": "Leading trimming proved in full. Trailing trimming is false of the code for strings of at most two characters and for all-white strings (witness theorems); proved otherwise. C02_trailing_exact: the exact result for every text (C02_trimmed_total)."
 },
 "C03": {
  "note": "Proved for quoted texts of 1..254 characters as stated; the empty quoted text is outside the property and is shown to be left quoted (witness)."
 },
 "C04": {
  "note": "Proved for the caller's tokenising loop over memory, any valid string."
 },
 "C05": {
  "note": "Proved."
 },
 "C06": {
  "note": "Proved; the code needs a capacity one larger than the decoded size (witness for an exact fit). C06_hex_any_text: exact result on every text; a pair that is not hexadecimal is stored as 0xFF without an error (witness)."
 },
 "C07": {
  "status": "partial",
  "note": "Proved for key lists of at most 255 keys; for 256 or more keys without a match the loop never terminates (C07_witness_hang, for every fuel). C07_exact: for lists of any length, whether and what the function returns."
 },
 "C08": {
  "status": "partial",
  "note": "Round trip and refusal proved; out-of-range numbers are reported as success with a different value on both 32 and 64 bit long (witnesses). Base 16 with the prefix 0x: C08_hex_prefix. C08_every_text/C08_one_number/C08_exact: every text starts with exactly one number (or none), and the result is that number as held by a long and reduced to int32; C08_faithful_iff: the value is the number itself exactly when it fits in int32."
 },
 "C09": {
  "note": "Proved for every helper with the delimiters the library uses (one character); a multi-character delimiter set can make the tokenizer dereference NULL (witness)."
 },
 "C19": {
  "note": "Proved for every table; lookup in an unsorted table can miss (witness)."
 },
 "C20": {
  "status": "partial",
  "note": "The table check refuses unsorted tables (proved); library initialisation ignores the result of the check and succeeds (C20_witness_init_accepts_unsorted)."
 },
 "C21": {
  "status": "partial",
  "note": "Complete law for lines of at most 256 characters: proper lines, leading colons (C21_colons_before_name), only colons, heap exhausted. Longer lines are dropped and '+:x' is corrupted or dereferences NULL depending on the C library (witnesses)."
 },
 "C28": {
  "status": "partial",
  "note": "Exact number of thresholds exceeded, monotone and refused parts in full; range for non-positive dBm values; positive values give 255 (witness)."
 },
 "C29": {
  "status": "partial",
  "note": "False of the code: the invalid marker shows as one bar with success (witness). Proved: never more than one bar."
 },
 "C30": {
  "note": "Proved over the whole integer domain."
 },
 "C39": {
  "note": "Proved."
 },
 "C31": {
  "note": "Proved over all histories, dynamic and static socket allocation."
 },
 "C32": {
  "status": "partial",
  "note": "False of the code: overlapping creations lose a socket (dynamic) or share one (static), witnesses. Proved: distinct handles with dynamic allocation; full claim for serialised callers."
 },
 "C33": {
  "status": "partial",
  "note": "Proved for live sockets and for unknown handles whose memory is readable (always, with static sockets). A second removal of a dynamically allocated socket reads freed memory (witness)."
 },
 "C34": {
  "note": "Proved for _Cellular_LibInit and Cellular_CommonInit, every combination of failing steps; receive task represented by its life time (its post-abort access is C37)."
 },
 "C35": {
  "note": "Proved over all histories of init and cleanup."
 },
 "C36": {
  "status": "partial",
  "note": "False of the code when a modem module step fails: the handle dangles (witness). Proved for all failures inside the library and for success."
 },
 "C37": {
  "status": "partial",
  "note": "False of the code: the receive task reads the shutdown callback from the freed context (witnesses for cleanup and for failed open). Proved for every schedule: this is the only such access; safe if the task's end is awaited."
 },
 "C59": {
  "note": "Proved."
 },
 "C60": {
  "note": "Proved over all registration histories; socket callbacks as stored per socket (they are invoked by modem ports only)."
 },
 "C40": {
  "status": "partial",
  "note": "Ranges proved over all histories of texts. Refusal proved for every value above the field's range that fits 31 bits; larger numbers wrap (witness)."
 },
 "C41": {
  "status": "partial",
  "note": "Exact event law proved for URCs; query answers call the callback too (witness)."
 },
 "C42": {
  "status": "partial",
  "note": "Proved for texts carrying only the status, and that no stale location survives any not-registered text. False in general: fields after a not-registered status are stored, and the TAC is never invalidated (witnesses)."
 },
 "C43": {
  "note": "Proved for every text and record."
 },
 "C44": {
  "status": "partial",
  "note": "Proved for access technologies 0,3,7,8,9 and cell ids below 2^31, with and without rejection fields; 1,2,4,5,6 are stored as invalid, empty optional fields are refused (witnesses). C44_exact: for every text of at most 256 characters the exact record, status and events (texts that are longer or blank are refused without effect: C44_refused_text)."
 },
 "C38": {
  "note": "Proved for the thirteen 3GPP API functions of the model."
 },
 "C45": {
  "note": "Proved for every 8-bit octet, both timers."
 },
 "C46": {
  "note": "Proved for every setting with an 8-bit mode."
 },
 "C47": {
  "status": "partial",
  "note": "False of the code: an illegal field before a legal one is masked (C47_witness_masked_failure). Proved: legal responses are decoded completely; an illegal last field or a sixth field is refused. C47_exact/C47_query_exact: for every response the exact record and status, field by field."
 },
 "C48": {
  "status": "partial",
  "note": "False of the code: every response with more than four well-formed lines overruns the list (C48_witness_overrun, for all such responses). Proved: at most four lines of any contents are safe, well-formed ones are reported in order. C48_edrx_ranges: no stored value exceeds its byte. C48_exact: for every answer with at most 256 entries, given through the meaning of each line (C48_meaning: every line has exactly one), the exact list and status, and the exact condition for writing outside the caller's list."
 },
 "C49": {
  "note": "Proved."
 },
 "C50": {
  "note": "Proved: command text, result, and refusal of invalid arguments."
 },
 "C51": {
  "status": "partial",
  "note": "False of the code: every locked state is reported as unknown (C51_witness_locked_states_unknown, all twelve states). Proved: READY is decoded exactly. C51_exact / C51_refused: for every answer, the exact lock state and status."
 },
 "C52": {
  "note": "Proved for upper-case hexadecimal records, any MCC/MNC; a lower-case f filler is not understood (witness). C52_exact / C52_refused: for every answer, the exact operator and status."
 },
 "C53": {
  "note": "Proved for every mode, operator and RAT value. The operator name of a name-format answer is decoded (C53_cops_name_decoded). C53_exact / C53_unreadable: for every answer, the exact operator record and status."
 },
 "C54": {
  "status": "partial",
  "note": "False of the code: a +COPS answer without operator gives success with an empty PLMN (witness). Proved: success implies both commands were accepted and a numeric operator line is reported exactly. C54_exact: the exact operator codes and result for every readable answer."
 },
 "C55": {
  "status": "partial",
  "note": "False of the code: failed queries give success with stale contents (witness). Proved: what is reported is the library record, or the old contents only if a query failed. C55_exact (with C55_total: it covers every behaviour of the modem): the exact commands sent, record, callbacks and caller's object; C55_query_exact: one registration query, for every reply; C55_meaning: every line has exactly one meaning."
 },
 "C56": {
  "status": "partial",
  "note": "Well-formed clock texts are decoded exactly; a text with missing fields can be reported as success (witness). C56_exact/C56_query_exact/C56_refused: for every answer the exact record and status."
 },
 "C57": {
  "status": "partial",
  "note": "Proved: no overrun, the address is complete and terminated if it fits; an address as long as the buffer is stored without terminator (witness). C57_exact / C57_refused: for every answer, the exact contents of the caller's buffer and status."
 },
 "C58": {
  "note": "Proved: identity strings exact, terminated, within the fields, for all answers. Texts of at most two characters keep trailing white space (hypothesis of C58_trimmed_text). C58_trimmed_exact, C58_numbers_exact and the _refused theorems: for every answer, the exact contents of the caller's field and status."
 },
 "C14": {
  "status": "partial",
  "note": "Proved for non-empty lines and prefixes of at most 256 characters; longer lines lose their prefix and an empty awaited prefix makes every prefixed line undefined (witnesses, proved for all such lines). C14_exact: the exact class of every line for every pending command and awaited prefix."
 },
 "C17": {
  "note": "Proved for every command, type and prefix; short sends of the transport are ignored by the code and not modelled."
 },
 "C18": {
  "status": "partial",
  "note": "Proved exactly for prefixes below 32 characters; from 32 on the stored copy has no terminator (proved for all such prefixes)."
 },
 "C11": {
  "status": "partial",
  "note": "Proved for all histories, splits, sizes, tables and callbacks that stay in their text: C11_memory_safe_partial without announced data, and C11_only_late_data with it - undefined behaviour is possible only after a data header that belongs to no pending data command, which does dereference NULL (witness)."
 },
 "C10": {
  "status": "partial",
  "note": "Proved by refinement of the buffer machine to a receiver without buffer: any byte stream whose lines the port's handlers accept, cut into reads in any way, is delivered line by line, once, in order. False of the code for refused lines (rest of the read lost) and lines filling the buffer (witnesses); C10_exact is the exact law for every sequence of reads of an idle library, these included."
 },
 "C12": {
  "status": "partial",
  "note": "False of the code: a read that exactly fills the buffer makes the next read report no byte although bytes are pending (witness). C12_exact: the loop always ends, and with everything read except in that case."
 },
 "C13": {
  "status": "partial",
  "note": "Proved for every history of reads without overflow; with an overflow the property is false (two witnesses: altered lines, lost short response)."
 },
 "C15": {
  "status": "partial",
  "note": "Contents, order and status proved for multi-line, single-line and no-result-code types with URCs interleaved anywhere and any cutting into reads; second line of a single-line command; never more responses than commands for all histories (unconditional). Response lines of any length. Missing: buffer overflow; unsolicited codes longer than 256 characters are taken for response lines (C15_witness_long_urc)."
 },
 "C16": {
  "status": "partial",
  "note": "Proved by refinement to a parser of streams into lines and data blocks: any contents, any cutting into reads, any header recogniser of the port (with laws), URCs before and after. Missing: blocks that do not fit the buffer (false of the code: witness), headers after which the command does not expect data (C11 witness)."
 },
 "C22": {
  "note": "Proved for all schedules of any number of threads and the receive task: at most one thread executes a request, everything done for a request happens while it is in progress, a request starts only after all earlier ones returned."
 },
 "C23": {
  "status": "partial",
  "note": "Proved if no request timed out, no data send failed, and the modem is silent while a command is about to be sent (OwnResult); without the last assumption in the weaker form RecentResult. Unconditionally: the law of what a request returns. False otherwise (two witnesses: late result after a timeout, stray result before sending). Histories with time-outs that were unanswered: C85."
 },
 "C24": {
  "status": "partial",
  "note": "As C23. Witness: lines of a response that timed out are handed to the next request's callback."
 },
 "C25": {
  "status": "partial",
  "note": "Proved, with absence of calls through NULL, if no request timed out and no data send failed; any modem behaviour. False otherwise (witnesses: callback after return, NULL call, callback twice)."
 },
 "C26": {
  "status": "partial",
  "note": "Order of data and end pattern, reported length, meaning of success: proved in all executions. Nothing left pending: proved unless the transport refused data (exact law C26_nothing_pending; false otherwise, witness)."
 },
 "C27": {
  "status": "partial",
  "note": "Tokens and callbacks in effect, comparisons with tokens and fetching of callbacks: proved in all executions. Missing: a prefix callback already fetched by the receive task may be called after its request timed out (witness)."
 },
 "C61": {
  "note": "Proved for every library state and modem answer."
 },
 "C62": {
  "note": "Proved in the interleaving model: at most thirteen own steps, never blocked; fairness of the mutex among waiters is the platform's."
 },
 "C63": {
  "note": "Proved for all schedules; intermediate states of a writer are arbitrary in the model. With C40: every value read is in range."
 },
 "C64": {
  "note": "Proved; _Cellular_GetCurrentRat included."
 },
 "C65": {
  "note": "Proved for all schedules of the start-up/shutdown model (event bits, receive loop)."
 },
 "C66": {
  "status": "partial",
  "note": "Start-up proved. Shutdown proved if the modem pauses: a modem that keeps sending keeps the receive task reading and Cellular_Cleanup polling for ever (witness for every number of steps)."
 },
 "C67": {
  "note": "Proved; the service status query, which violates it, is C55."
 },
 "C68": {
  "note": "Proved for all helpers."
 },
 "C69": {
  "status": "partial",
  "note": "Proved for all schedules, calls and data when the callbacks keep a stated discipline (C69_allowed_callbacks): every call returns, no fairness assumed. False of the code for a registration-event callback that reads the registration state, an input-buffer callback that takes PktRespMutex and a callback that cleans up (witnesses). Lock skeletons: data-free, time-limited waits always return; mutex destruction not modelled."
 },
 "C70": {
  "note": "Proved for ports without input callback. Requests are made one at a time; what arrives from one answer to the next is shorter than the receive buffer and ends with a complete line. API level: every sequence of calls of the 13 modelled functions (C70_session)."
 },
 "C71": {
  "status": "partial",
  "note": "False of the code: lines collected for a request that timed out are given to the next request, or make it fail (C71_witness_stale_line, three forms). Proved if no earlier request timed out in the middle of its answer."
 },
 "C72": {
  "status": "partial",
  "note": "Proved for lines of at most 256 characters that fit the buffer and do not begin with \"+:\" and for accepted undefined lines, streams of any length. The last sentence is false of the code: a refused line costs the rest of its read (C72_refused says exactly what happens)."
 },
 "C73": {
  "status": "partial",
  "note": "False of the code when a frame is followed by a line end or another frame in the same read (an empty line is processed; the second frame is taken for text) and when the callback fails while response lines are collected (the lines are overwritten): witnesses. Otherwise proved: refinement to a stream-level receiver for any callback, frames directly before a line for any cut, declining callback = no callback."
 },
 "C74": {
  "note": "Proved by refinement: the machine with linked lists on an explicit heap behaves like Verif.Pktio for every history on which that is defined (all, with sane callbacks, except data headers that come too late: C11). C74_no_leak counts the blocks."
 },
 "C75": {
  "note": "Proved if no request timed out and no data send failed (any modem behaviour, any order of evaluation). False otherwise: the callback of one request runs with the buffer of another (C75_witness_mixed, C75_witness_foreign_buffer)."
 },
 "C76": {
  "note": "Proved for streams made of complete lines of at most 256 characters that fit in the receive buffer between answers, reports with values in range, undefined lines only if the port accepts them (losses otherwise: witnesses of C10, C14, C72). Requests one at a time."
 },
 "C77": {
  "note": "Proved for every supply of bytes, cut by the transport to what it is asked for (contract_clipped), and every session. False of the code in two cases: more than four lines in answer to the eDRX query overrun the caller's list (C48_witness_overrun), and with a strtok_r that leaves a null pointer a line +:NAME makes the library use it (C77_witness_newlib, exact condition C21_defined_iff). Port callbacks must edit text in place (C11)."
 },
 "C78": {
  "note": "C78_consent and C78_defined hold for every stream of bytes; the exact reports (C78_transfer, C78_not_accepted, C78_transfers) for streams with the modem's answer, prompts recognised by callbacks that turn exactly the prompt into a line (Prompts), and a transport that takes all bytes. If it does not, the pending command type is left behind (C78_witness_send_error, see C26)."
 },
 "C79": {
  "note": "Proved for texts that do not start with a delimiter other than the first character of the delimiter string. False of the code otherwise; the behaviour is characterised exactly: after one skipped delimiter the rest of the text is lost (C79_witness_lost), after two or more the pointer is left behind the terminating NUL when the token is the last one (C79_witness_behind_the_end), and a text of delimiters only is undefined behaviour (C79_only_delimiters)."
 },
 "C80": {
  "note": "For command type multi-line-with-data, responses that are complete or absent, and sessions that fit into the receive buffer between two answers. The hypotheses are needed: a response that stops inside a block makes the next request fail (C80_witness_timeout_in_block), a header after the result code is undefined behaviour (C80_witness_late_header)."
 },
 "C81": {
  "note": "Proved for every schedule and any number of tasks: late calls are refused, at most one more command per task, the queue is never deleted under a request, the cleanup can always end, no violation if all calls have returned before. False of the code: a call that has passed the checks uses the freed context, passes the checks after libClose is finished, or sends to the closed transport (witnesses)."
 },
 "C82": {
  "note": "Proved for all executions without restriction: one request at a time, return law, what is sent, scope of tokens and prefix callbacks, nothing pending when idle. Proved for all schedules: memory safety with callbacks that announce no data; with callbacks that announce data, undefined behaviour only after a line with announced data was not collected for a data response, and if no request timed out and headers fit their commands, only after a header for which no request waits (both happen: witnesses); refinement of the line model (C22-C27) and exactness of lines and callback texts for requests without prefix callbacks while the buffer does not overflow (C82_lines also: while no line was refused; with refused lines, C82_pieces: bytes are dropped only directly after a line that the port's handler refused); with data prefix callbacks the stream is divided exactly into lines, header+data blocks and prompts (without line end, taken up as their callback shows them) and the callbacks get exactly the texts of their pieces (C82_pieces; before a Late / Stray header); without interference the receive task does exactly one event of the sequential model, also with prefix callbacks. Results, callback ownership, no crash: for every port, with any prefix callbacks and overflow, if no request timed out before (_partial, as C23-C25); byte for byte with data prefix callbacks (C82_own_pieces_partial). False with a data prefix callback: a data receive that times out between header recognition and classification makes the receive task dereference NULL (witness)."
 },
 "C83": {
  "note": "In the concurrent model with lines and over the byte stream, for requests with and without data prefix callbacks (C83_pieces: the answer in lines, header+data pieces and prompts, except after data announced by a line that was not collected for a data response). Missing: histories with time-outs (unanswered ones: C85) or failed data sends and a modem that talks while a command is being sent (false then: C24, C71 witnesses), byte stream version only without buffer overflow."
 },
 "C84": {
  "note": "Requests one at a time (concurrent callers: C63, C82, C83). Reports well-formed and lines of at most 256 characters (the parser on arbitrary texts: C42-C44)."
 },
 "C85": {
  "note": "In the concurrent model with lines, with user data, and over the byte stream. The assumption cannot be dropped (witnesses under C23, C24, C25, C75). Inherent in the protocol and not claimed: a late answer that arrives after the NEXT request was sent is taken for the answer to that one. C85_answer and C85_result are for requests without data prefix callback; with data prefix callbacks (data and prompts): C85_pieces, C85_pieces_result (over the byte stream); completeness over the byte stream without buffer overflow."
 },
 "C86": {
  "note": "In the byte-level concurrent model (Bytes). The bound is 14 * size + 13 steps of the receive task, over all interleavings with the other tasks (steps of the requesting tasks are not counted; the mutex pktRespMutex, which the requesting tasks hold only for a moment, is not modelled as blocking). Ends in undefined behaviour (states crashed/bad) are excluded by C11 and C82. A callback is one step."
 },
 "C87": {
  "note": "In the concurrent model with lines (C87_answered, C87_timeout), and over the byte stream when the receive task waits for the transport (with C86: which it gets back to), there without the exception for refused lines as long as none was dropped. The two exceptions of the statement are necessary: C87_in_hand_witness, C87_refused_witness (for a command without lines of contents, one stray line that the port's handler refuses makes the library overlook \"OK\"). With data prefix callbacks (data and prompts): C87_pieces_partial (except after data announced by a line that was not collected for a data response). Not claimed for a full buffer over the byte stream (false then: C87_full_buffer_witness)."
 }
}
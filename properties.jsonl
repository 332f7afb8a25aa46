{"id": "C01", "title": "Whitespace and quote removal delete exactly those characters", "statement": "For every NUL-terminated string of 1..256 characters, Cellular_ATRemoveAllWhiteSpaces and Cellular_ATRemoveAllDoubleQuote return success, leave the string equal to the original with exactly the white-space (resp. double-quote) characters deleted and every other character kept in order, and change no byte outside the string; empty or longer strings are rejected and left unchanged.", "quantifier": "all strings, all surrounding buffers", "why_tests_cant": "Compaction in place over every position/length combination; tests sample a few strings.", "anchors": ["source/cellular_at_core.c:Cellular_ATRemoveAllWhiteSpaces", "source/cellular_at_core.c:Cellular_ATRemoveAllDoubleQuote"]}
{"id": "C02", "title": "Leading/trailing white space trimming", "statement": "Cellular_ATRemoveLeadingWhiteSpaces advances to the first non-space character; Cellular_ATRemoveTrailingWhiteSpaces removes exactly the trailing white space of every valid string.", "quantifier": "all valid strings", "why_tests_cant": "The trailing case is false for strings of length <= 2 and for all-space strings; only a proof over all strings finds the exact domain.", "anchors": ["source/cellular_at_core.c:Cellular_ATRemoveLeadingWhiteSpaces", "source/cellular_at_core.c:Cellular_ATRemoveTrailingWhiteSpaces"]}
{"id": "C03", "title": "Outermost quotes", "statement": "For every quoted text \"t\" (t of length 1..254, any characters) Cellular_ATRemoveOutermostDoubleQuote yields exactly t; a string carrying no outer quotes is left unchanged.", "quantifier": "all texts t, including those containing quotes", "why_tests_cant": "Depends on length boundaries (<= 2) and on content at both ends.", "anchors": ["source/cellular_at_core.c:Cellular_ATRemoveOutermostDoubleQuote"]}
{"id": "C04", "title": "Tokenising a comma separated response yields its fields", "statement": "Calling Cellular_ATGetNextTok repeatedly on a valid string until it refuses returns exactly the comma separated fields of the string, in order, including empty ones, with one exception: an empty last field (string ending in a comma) is not reported.", "quantifier": "all strings of 1..256 characters, any number of fields", "why_tests_cant": "Any number and lengths of fields; consecutive delimiters; trailing delimiter.", "anchors": ["source/cellular_at_core.c:Cellular_ATGetNextTok", "source/cellular_at_core.c:Cellular_ATGetSpecificNextTok"]}
{"id": "C05", "title": "Response prefix recognition and removal", "statement": "Cellular_ATIsPrefixPresent reports true exactly for strings '+' followed by letters, digits, '_' or '+' up to the first ':'; Cellular_ATRemovePrefix leaves exactly the text after the first ':' and refuses strings without one.", "quantifier": "all valid strings", "why_tests_cant": "Every position of the first colon and every character class combination.", "anchors": ["source/cellular_at_core.c:Cellular_ATIsPrefixPresent", "source/cellular_at_core.c:Cellular_ATRemovePrefix"]}
{"id": "C06", "title": "Hex decoding inverts hex encoding and respects the destination size", "statement": "For every byte sequence, decoding its (upper or lower case) hexadecimal text with Cellular_ATHexStrToHex into a buffer that is large enough gives back the bytes, writes nothing beyond them, and a destination that is too small is refused with no write at all.", "quantifier": "all byte sequences up to the string limit, all destination sizes", "why_tests_cant": "All 256 byte values at every position and all buffer sizes; boundary size equality is rejected by the code.", "anchors": ["source/cellular_at_core.c:Cellular_ATHexStrToHex", "source/cellular_at_core.c:_charToNibble"]}
{"id": "C07", "title": "Result-code matching is prefix matching and terminates", "statement": "Cellular_ATcheckErrorCode returns, for every key list, and reports true exactly when some (valid) key is a prefix of the input.", "quantifier": "all inputs, all key lists of any length", "why_tests_cant": "Termination for every list length: the 8-bit index never reaches a length of 256 or more.", "anchors": ["source/cellular_at_core.c:Cellular_ATcheckErrorCode", "source/cellular_at_core.c:Cellular_ATStrStartWith"]}
{"id": "C08", "title": "Integer parsing is faithful", "statement": "Cellular_ATStrtoi returns v for the decimal (or base 2/16) text of every 32-bit v, refuses text with no digits leaving the result untouched, and never reports success with a value other than the one written.", "quantifier": "all integers, all texts", "why_tests_cant": "Out-of-range texts silently wrap modulo 2^32; a property over all integers.", "anchors": ["source/cellular_at_core.c:Cellular_ATStrtoi"]}
{"id": "C09", "title": "AT string helpers are memory safe", "statement": "No AT string helper reads or writes outside the caller's NUL-terminated string (or the stated destination buffer), for any string content and any position of the string in its buffer.", "quantifier": "all buffers, offsets and string contents", "why_tests_cant": "Out-of-bounds accesses are data dependent and silent in tests.", "anchors": ["source/cellular_at_core.c:validateString", "source/cellular_at_core.c:Cellular_ATGetSpecificNextTok", "source/cellular_at_core.c:Cellular_ATRemoveOutermostDoubleQuote", "source/cellular_at_core.c:Cellular_ATHexStrToHex"]}
{"id": "C10", "title": "Lines are delivered once, in order, independent of chunking", "statement": "While the library is idle, every complete non-empty line of the modem's byte stream is handed to the unsolicited handler exactly once and in order, whatever way the transport splits the stream into reads; an incomplete last line is kept until the rest arrives.", "quantifier": "all byte streams, all ways of cutting them into reads", "why_tests_cant": "Unboundedly many cut points; interaction with buffer compaction and with lines the library does not understand (which drop the rest of the buffer).", "anchors": ["source/cellular_pktio.c:_Cellular_ReadLine", "source/cellular_pktio.c:_handleAllReceived", "source/cellular_pktio.c:_findLineInStream", "source/cellular_pktio.c:_getNextLine", "source/cellular_pktio.c:_handleLeftoverBuffer"]}
{"id": "C11", "title": "Receive buffer memory safety", "statement": "Whatever bytes the modem sends and however they are split, receiving never reads or writes outside the receive buffer, including for lines, responses and data longer than the buffer, as long as the transport writes no more than it was asked for and prefix callbacks stay inside the text they were given.", "quantifier": "all byte streams, splits, command types, token tables, callback results", "why_tests_cant": "Depends on offset arithmetic over the entire receive history.", "anchors": ["source/cellular_pktio.c:_Cellular_ReadLine", "source/cellular_pktio.c:_handleData", "source/cellular_pktio.c:_handleAllReceived", "source/cellular_pktio.c:_handleMsgType", "source/cellular_pktio.c:_preprocessInputBuffer"]}
{"id": "C12", "title": "No pending input is left unread", "statement": "When the receive task handles a receive notification it keeps reading until the transport has no more bytes.", "quantifier": "all receive histories", "why_tests_cant": "Needs a read that fills the buffer exactly; a history property.", "anchors": ["source/cellular_pktio.c:_Cellular_ReadLine", "source/cellular_pktio.c:_handleRxDataEvent", "source/cellular_pktio.c:_pktioReadThread"]}
{"id": "C13", "title": "Buffered response lines are not corrupted", "statement": "Every line of a command response handed to the response callback is the line the modem sent, for every response size: a response that does not fit is reported as an error or dropped, not altered.", "quantifier": "all responses and splits", "why_tests_cant": "Needs a response longer than the buffer; corruption is a history property.", "anchors": ["source/cellular_pktio.c:_Cellular_ReadLine", "source/cellular_pktio.c:_saveData"]}
{"id": "C14", "title": "Message classification", "statement": "Each line is classified as unsolicited, solicited or undefined exactly by the documented rule: listed tokens are unsolicited; prefixed lines are unsolicited unless a command is waiting for that prefix; unprefixed lines are solicited while a command is waiting and undefined otherwise.", "quantifier": "all lines, token tables, prefixes, command states", "why_tests_cant": "All lines including those over 256 characters, for which the prefix test is silently skipped.", "anchors": ["source/cellular_pktio.c:_getMsgType", "source/cellular_pktio.c:_checkUrcTokenWoPrefix"]}
{"id": "C15", "title": "A command's response is its intermediate lines in order plus the result code", "statement": "For a command expecting lines, the response passed to its callback contains exactly the solicited intermediate lines received since the command was sent, in order, and its status is success exactly when the final line is a success token; single-line commands receive at most one line.", "quantifier": "all line sequences, token tables and command types", "why_tests_cant": "Any number of lines, URCs interleaved anywhere.", "anchors": ["source/cellular_pktio.c:_Cellular_ProcessLine", "source/cellular_pktio.c:_processIntermediateResponse", "source/cellular_pktio.c:_handleMsgType", "source/cellular_pktio.c:_saveData"]}
{"id": "C16", "title": "Binary data is passed through untouched", "statement": "When a response announces n bytes of data, exactly the next n bytes of the stream are delivered as one item with their original values - including CR, LF, NUL and text resembling result codes - however they are split over reads, and parsing resumes right after them.", "quantifier": "all data contents, lengths up to the buffer, all splits", "why_tests_cant": "All contents and all cut points.", "anchors": ["source/cellular_pktio.c:_handleData", "source/cellular_pktio.c:_handleDataResult", "source/cellular_pktio.c:_handleRxDataEvent"]}
{"id": "C17", "title": "A command is sent as its text followed by CR", "statement": "For every command of at most 200 characters exactly the command followed by a carriage return is written to the modem; longer commands, or commands of an undefined type, are refused with BAD_PARAM and nothing is written and no command is marked as pending.", "quantifier": "all commands, command types and prefixes", "why_tests_cant": "Boundary over all lengths; buffer holds exactly one more byte.", "anchors": ["source/cellular_pktio.c:_Cellular_PktioSendAtCmd", "source/cellular_pktio.c:_setPrefixByAtCommandType"]}
{"id": "C18", "title": "Expected prefix is stored faithfully", "statement": "The response prefix used for matching equals the prefix given with the command, for every prefix.", "quantifier": "all prefix lengths", "why_tests_cant": "strncpy into a 32 byte buffer: false from 32 characters on.", "anchors": ["source/cellular_pktio.c:_setPrefixByAtCommandType"]}
{"id": "C19", "title": "URC handler lookup", "statement": "If the URC table passes the initial check it is strictly sorted, and looking up a token calls the handler registered for exactly that token, or none if the token is not in the table.", "quantifier": "all tables of any size, all tokens", "why_tests_cant": "Binary search over every table size and token, including prefixes of one another.", "anchors": ["source/cellular_pkthandler.c:_Cellular_AtParseInit", "source/cellular_pkthandler.c:_atParseGetHandler", "source/cellular_pkthandler.c:_searchCompareFunc", "source/cellular_pkthandler.c:_sortCompareFunc"]}
{"id": "C20", "title": "An unsorted URC table is refused", "statement": "Initialising the library with a URC table that is not strictly sorted fails.", "quantifier": "all tables", "why_tests_cant": "libOpen ignores the check's result; the effect shows only for some lookups.", "anchors": ["source/cellular_common.c:libOpen", "source/cellular_pkthandler.c:_Cellular_AtParseInit"]}
{"id": "C21", "title": "URC payload delivery", "statement": "A URC '+NAME:payload' reaches the handler registered for NAME with exactly payload, and if no handler is registered the generic callback receives the line unchanged; a listed token without prefix reaches its handler; each URC causes exactly one call.", "quantifier": "all lines, all tables", "why_tests_cant": "The empty-name case '+:...' breaks both halves; only a quantification over all lines exposes it.", "anchors": ["source/cellular_pkthandler.c:_processUrcPacket", "source/cellular_pkthandler.c:_atParseGetHandler", "source/cellular_common.c:_Cellular_GenericCallback"]}
{"id": "C22", "title": "Commands are mutually exclusive", "statement": "At every moment of every schedule at most one command (or two-step data transfer) is in progress; a second caller waits until the first has returned.", "quantifier": "all schedules of any number of threads", "why_tests_cant": "Interleavings.", "anchors": ["source/cellular_pkthandler.c:_Cellular_PktHandler_AtcmdRequestWithCallback", "source/cellular_pkthandler.c:_Cellular_AtcmdDataSend", "source/cellular_pkthandler.c:_Cellular_PktHandlerAcquirePktRequestMutex"]}
{"id": "C23", "title": "A command gets its own result", "statement": "The status a command returns is the status of a final result code received after that command was sent and before it returned.", "quantifier": "all schedules, timeouts and modem behaviours", "why_tests_cant": "Late replies after a timeout; needs interleaving of timeout and reply.", "anchors": ["source/cellular_pkthandler.c:_Cellular_AtcmdRequestTimeoutWithCallbackRaw", "source/cellular_pkthandler.c:_convertAndQueueRespPacket"]}
{"id": "C24", "title": "A response contains only lines received for that command", "statement": "No line received before a command was sent appears in that command's response.", "quantifier": "all schedules", "why_tests_cant": "A timeout in the middle of a response leaves the partial response in place.", "anchors": ["source/cellular_pkthandler.c:_Cellular_AtcmdRequestTimeoutWithCallbackRaw", "source/cellular_pktio.c:_handleMsgType"]}
{"id": "C25", "title": "The response callback runs at most once per command and only while it is pending", "statement": "Each command's response callback is invoked at most once, and never after the command returned to its caller.", "quantifier": "all schedules", "why_tests_cant": "The callback is read outside the lock by the receive task.", "anchors": ["source/cellular_pkthandler.c:_convertAndQueueRespPacket", "source/cellular_pkthandler.c:_Cellular_AtcmdRequestTimeoutWithCallbackRaw"]}
{"id": "C26", "title": "Two-step data send", "statement": "Data bytes are written only after the command step succeeded; the end pattern only after all data bytes were accepted; the reported sent length is what the transport accepted; the request returns with no command left pending.", "quantifier": "all transport and modem behaviours", "why_tests_cant": "All combinations of partial sends, errors and timeouts; the send-error path leaves the command type pending.", "anchors": ["source/cellular_pkthandler.c:_Cellular_AtcmdDataSend", "source/cellular_pkthandler.c:_Cellular_DataSendWithTimeoutDelayRaw", "source/cellular_pkthandler.c:_Cellular_TimeoutAtcmdDataSendSuccessToken"]}
{"id": "C27", "title": "Extra success tokens and prefix callbacks are scoped to one command", "statement": "Success tokens and prefix callbacks installed for one command are not in effect during any other command.", "quantifier": "all sequences of commands, all results", "why_tests_cant": "Every exit path must uninstall.", "anchors": ["source/cellular_pkthandler.c:_Cellular_AtcmdRequestSuccessToken", "source/cellular_pkthandler.c:_Cellular_TimeoutAtcmdDataRecvRequestWithCallback", "source/cellular_pkthandler.c:_Cellular_AtcmdDataSend"]}
{"id": "C28", "title": "Signal bars are monotone and in range", "statement": "For a supported RAT, _Cellular_ComputeSignalBars gives 1 plus the number of the RAT's thresholds the signal exceeds (1..5), which never decreases when the signal gets stronger; unsupported RATs are refused.", "quantifier": "all signal values, all RATs", "why_tests_cant": "Monotonicity over all pairs.", "anchors": ["source/cellular_common.c:_Cellular_ComputeSignalBars", "source/cellular_common.c:_getSignalBars"]}
{"id": "C29", "title": "Unknown signal is not shown as bars", "statement": "The 'invalid signal' marker value is never turned into a valid bar count.", "quantifier": "all RATs", "why_tests_cant": "One magic value outside tested range.", "anchors": ["source/cellular_common.c:_Cellular_ComputeSignalBars"]}
{"id": "C30", "title": "CSQ conversion", "statement": "For every AT+CSQ rssi 0..31 the result is -113+2*rssi dBm, 99 gives the invalid marker, everything else is refused; ber 0..7 follows the 3GPP table, 99 is invalid, everything else is refused.", "quantifier": "all 16-bit inputs", "why_tests_cant": "Whole input range.", "anchors": ["source/cellular_common.c:_Cellular_ConvertCsqSignalRssi", "source/cellular_common.c:_Cellular_ConvertCsqSignalBer"]}
{"id": "C31", "title": "Socket table invariants", "statement": "Over every history of socket creation and removal, live sockets have distinct ids below the maximum, each handle designates its own entry, creation fails exactly when the table is full, and a removed socket's id becomes available again.", "quantifier": "all operation histories", "why_tests_cant": "Histories of any length.", "anchors": ["source/cellular_common.c:_Cellular_CreateSocketData", "source/cellular_common.c:_Cellular_RemoveSocketData", "source/cellular_common.c:_Cellular_GetSocketData"]}
{"id": "C32", "title": "Concurrent socket creation gives distinct sockets", "statement": "Two threads creating sockets at the same time get different sockets and none is lost.", "quantifier": "all schedules", "why_tests_cant": "Check-then-set without a lock.", "anchors": ["source/cellular_common.c:_Cellular_CreateSocketData", "source/cellular_common_api.c:Cellular_CommonCreateSocket"]}
{"id": "C33", "title": "A socket in connecting state cannot be removed silently / removal of an unknown socket is refused", "statement": "Removing a socket releases exactly that socket; removing one not in the table reports failure and changes nothing.", "quantifier": "all table states", "why_tests_cant": "All positions.", "anchors": ["source/cellular_common.c:_Cellular_RemoveSocketData"]}
{"id": "C34", "title": "Library initialisation is all-or-nothing", "statement": "If _Cellular_LibInit fails, every mutex, queue, event group, thread and context it created has been released and a later initialisation can succeed; on success all are present.", "quantifier": "every failure point", "why_tests_cant": "Fault injection at each of the creation steps and their rollback order.", "anchors": ["source/cellular_common.c:_Cellular_LibInit", "source/cellular_common.c:_Cellular_LibCleanup", "source/cellular_common.c:libOpen", "source/cellular_pktio.c:_Cellular_PktioInit"]}
{"id": "C35", "title": "At most one open library instance", "statement": "At most one context is allocated at a time: a second Cellular_Init without cleanup fails and does not disturb the first; cleanup makes initialisation possible again.", "quantifier": "all init/cleanup histories", "why_tests_cant": "Histories.", "anchors": ["source/cellular_common.c:_Cellular_AllocContext", "source/cellular_common.c:_Cellular_FreeContext", "source/cellular_common.c:_Cellular_LibInit"]}
{"id": "C36", "title": "A failed initialisation does not give out a handle", "statement": "When Cellular_CommonInit fails the caller's handle does not designate a freed context.", "quantifier": "every failure point after LibInit", "why_tests_cant": "Only when the later modem set-up fails.", "anchors": ["source/cellular_common_api.c:Cellular_CommonInit"]}
{"id": "C37", "title": "Shutdown is safe", "statement": "After cleanup returned, the receive task touches neither the context nor the event group.", "quantifier": "all schedules of cleanup and receive task", "why_tests_cant": "Race between ABORTED and the final shutdown callback.", "anchors": ["source/cellular_pktio.c:_pktioReadThread", "source/cellular_pktio.c:_Cellular_PktioShutdown", "source/cellular_common.c:_Cellular_LibCleanup"]}
{"id": "C38", "title": "API calls on a closed or failed library have no effect", "statement": "Every 3GPP API call on a null or not-open handle returns an error and sends no bytes to the modem.", "quantifier": "all API functions, all argument values", "why_tests_cant": "All functions and arguments.", "anchors": ["source/cellular_common.c:_Cellular_CheckLibraryStatus", "source/cellular_3gpp_api.c:Cellular_CommonGetServiceStatus"]}
{"id": "C39", "title": "Status translation never turns failure into success", "statement": "Translating any internal packet or AT-core status to the API status yields success exactly for the internal success status.", "quantifier": "all status values", "why_tests_cant": "All values (including out-of-range enumerators).", "anchors": ["source/cellular_common.c:_Cellular_TranslatePktStatus", "source/cellular_common.c:_Cellular_TranslateAtCoreStatus"]}
{"id": "C40", "title": "Registration fields are stored within range", "statement": "After any +CREG/+CGREG/+CEREG text, stored status is a defined value, LAC/TAC fit 16 bits, RAC fits 8 bits, RAT is a defined value or invalid, reject cause/type fit 8 bits; out-of-range fields are refused and the previous value kept.", "quantifier": "all texts, all previous states", "why_tests_cant": "All field contents and orders.", "anchors": ["source/cellular_3gpp_urc_handler.c:_Cellular_ParseRegStatus", "source/cellular_3gpp_urc_handler.c:_parseRegStatusInRegStatusParsing", "source/cellular_3gpp_urc_handler.c:_parseLacTacInRegStatus", "source/cellular_3gpp_urc_handler.c:_parseRatInfoInRegStatus"]}
{"id": "C41", "title": "Registration event fires exactly on a change", "statement": "A registration URC calls the network-registration callback exactly once if the circuit-switched (CREG) resp. packet-switched (CGREG/CEREG) status changed, and not at all otherwise; query responses never do.", "quantifier": "all texts and previous states", "why_tests_cant": "All pairs of old/new state; partially parsed texts.", "anchors": ["source/cellular_3gpp_urc_handler.c:_Cellular_RegEventStatus", "source/cellular_3gpp_urc_handler.c:_Cellular_ParseRegStatus"]}
{"id": "C42", "title": "Loss of registration invalidates location and RAT", "statement": "After a registration text that leaves neither domain registered, location area, cell id, RAC and RAT are invalid; so they are before the first text, when both domains are searching.", "quantifier": "all texts and previous states", "why_tests_cant": "All combinations of the two domains.", "anchors": ["source/cellular_3gpp_urc_handler.c:_Cellular_ParseRegStatus", "source/cellular_3gpp_api.c:_Cellular_InitAtData"]}
{"id": "C43", "title": "Reject information belongs to a denied registration", "statement": "Rejection type and cause are updated only by a text whose status is 'registration denied'.", "quantifier": "all texts and states", "why_tests_cant": "All field positions.", "anchors": ["source/cellular_3gpp_urc_handler.c:_parseRejectTypeInRegStatus", "source/cellular_3gpp_urc_handler.c:_parseRejectCauseInRegStatus"]}
{"id": "C44", "title": "A well-formed registration text is decoded exactly", "statement": "For every status, LAC, cell id and access technology, parsing the corresponding CREG/CGREG/CEREG text stores exactly those values.", "quantifier": "all field values", "why_tests_cant": "All values round trip.", "anchors": ["source/cellular_3gpp_urc_handler.c:_Cellular_ParseRegStatus"]}
{"id": "C45", "title": "PSM timer decoding", "statement": "For every 8-bit T3412/T3324 timer text the decoded number of seconds is multiplier(unit bits) * value(5 bits) of 3GPP TS 24.008, unit 7 is 'deactivated', undefined units are refused.", "quantifier": "all 256 timer octets (and all texts)", "why_tests_cant": "Both tables in full, for the texts not only the octets.", "anchors": ["source/cellular_3gpp_api.c:parseT3412TimerValue", "source/cellular_3gpp_api.c:parseT3324TimerValue"]}
{"id": "C46", "title": "PSM settings command", "statement": "The AT+CPSMS command sent for any settings consists of the mode and the four timers as 8-bit binary strings (empty if zero), is never truncated, and decoding each field gives back the low 8 bits of the setting.", "quantifier": "all settings", "why_tests_cant": "2^136 settings; snprintf truncation.", "anchors": ["source/cellular_3gpp_api.c:Cellular_CommonSetPsmSettings", "source/cellular_3gpp_api.c:appendBinaryPattern"]}
{"id": "C47", "title": "PSM query reports parse failures", "statement": "Cellular_CommonGetPsmSettings succeeds only if every field present in the response was parsed.", "quantifier": "all responses", "why_tests_cant": "A failure in a non-last field is masked by the next one.", "anchors": ["source/cellular_3gpp_api.c:_Cellular_RecvFuncGetPsmSettings"]}
{"id": "C48", "title": "eDRX query stays inside the caller's list", "statement": "Cellular_CommonGetEidrxSettings writes at most CELLULAR_EDRX_LIST_MAX_SIZE entries whatever the modem answers and reports them in order.", "quantifier": "all responses with any number of lines", "why_tests_cant": "Needs more lines than list entries.", "anchors": ["source/cellular_3gpp_api.c:_Cellular_RecvFuncGetEidrxSettings", "source/cellular_3gpp_api.c:parseEidrxLine", "source/cellular_3gpp_api.c:parseEidrxToken"]}
{"id": "C49", "title": "eDRX settings command", "statement": "AT+CEDRXS sent for any settings carries mode, RAT and the low 4 bits of the value in binary and is not truncated.", "quantifier": "all settings", "why_tests_cant": "All values.", "anchors": ["source/cellular_3gpp_api.c:Cellular_CommonSetEidrxSettings"]}
{"id": "C50", "title": "PDN configuration command", "statement": "For every context id, PDN type and APN accepted by Cellular_CommonSetPdnConfig the command sent is AT+CGDCONT=<id>,\"<type>\",\"<apn>\" in full (never truncated); invalid ids and types are refused and nothing is sent.", "quantifier": "all ids, types, APNs up to the maximum", "why_tests_cant": "Truncation at 200 characters over all lengths.", "anchors": ["source/cellular_3gpp_api.c:Cellular_CommonSetPdnConfig", "source/cellular_common.c:_Cellular_IsValidPdn"]}
{"id": "C51", "title": "SIM lock state decoding", "statement": "Each lock state a modem reports with +CPIN (READY, SIM PIN, SIM PUK, ...) is decoded to the corresponding enumerator.", "quantifier": "all documented states", "why_tests_cant": "White space is removed before comparing with texts containing spaces.", "anchors": ["source/cellular_3gpp_api.c:_Cellular_RecvFuncGetSimLockStatus", "source/cellular_3gpp_api.c:_getSimLockState"]}
{"id": "C52", "title": "Home PLMN decoding", "statement": "For every MCC of three digits and MNC of two or three digits, decoding the SIM's HPLMN record (upper-case hexadecimal) returns that MCC and MNC; empty (FFFFFF) or short records are refused.", "quantifier": "all MCC/MNC pairs", "why_tests_cant": "Nibble swapping for all digits.", "anchors": ["source/cellular_3gpp_api.c:_parseHplmn", "source/cellular_3gpp_api.c:_Cellular_RecvFuncGetHplmn"]}
{"id": "C53", "title": "Operator information decoding", "statement": "For every registration mode, numeric operator and RAT, parsing +COPS: mode,2,\"mccmnc\",rat yields that mode, MCC (3 digits), MNC (2-3 digits) and RAT.", "quantifier": "all operators", "why_tests_cant": "All lengths and values.", "anchors": ["source/cellular_3gpp_api.c:_parseCopsNetworkNameToken", "source/cellular_3gpp_api.c:_parseCopsRatToken", "source/cellular_3gpp_api.c:_Cellular_RecvFuncUpdateMccMnc"]}
{"id": "C54", "title": "Registered-network query succeeds only when registered", "statement": "Cellular_CommonGetRegisteredNetwork returns success only if the modem named an operator.", "quantifier": "all modem answers", "why_tests_cant": "'+COPS: 0' (not registered) is answered with success and empty strings.", "anchors": ["source/cellular_3gpp_api.c:Cellular_CommonGetRegisteredNetwork", "source/cellular_3gpp_api.c:_Cellular_RecvFuncUpdateMccMnc"]}
{"id": "C55", "title": "Service status query reports failures", "statement": "Cellular_CommonGetServiceStatus returns success only if the registration state it reports was obtained.", "quantifier": "all modem answers", "why_tests_cant": "Results of both queries are discarded.", "anchors": ["source/cellular_3gpp_api.c:Cellular_CommonGetServiceStatus", "source/cellular_3gpp_api.c:atcmdQueryRegStatus"]}
{"id": "C56", "title": "Network time decoding", "statement": "For every date/time/zone the +CCLK text is decoded to the same values, the sign of the zone included; success is reported only if all fields were decoded.", "quantifier": "all dates and texts", "why_tests_cant": "All values; missing-field texts.", "anchors": ["source/cellular_3gpp_api.c:_Cellular_RecvFuncGetNetworkTime", "source/cellular_3gpp_api.c:_parseYearMonthDayInCCLKResponse", "source/cellular_3gpp_api.c:_parseTimeInCCLKResponse", "source/cellular_3gpp_api.c:_parseTimeZoneInCCLKResponse"]}
{"id": "C57", "title": "IP address text is terminated", "statement": "Cellular_CommonGetIPAddress leaves a NUL-terminated string in the caller's buffer and never writes beyond it.", "quantifier": "all answers, all buffer lengths", "why_tests_cant": "strncpy with equal or longer source.", "anchors": ["source/cellular_3gpp_api.c:_Cellular_RecvFuncIpAddress"]}
{"id": "C58", "title": "Identity strings are terminated and bounded", "statement": "IMSI, ICCID, IMEI, model, manufacturer and firmware texts are copied completely or refused/truncated to the documented maximum and always NUL-terminated in the caller's structure.", "quantifier": "all answers", "why_tests_cant": "All lengths around the maxima.", "anchors": ["source/cellular_3gpp_api.c:_Cellular_RecvFuncGetImsi", "source/cellular_3gpp_api.c:_Cellular_RecvFuncGetIccid", "source/cellular_3gpp_api.c:_Cellular_RecvFuncGetImei", "source/cellular_3gpp_api.c:_Cellular_RecvFuncGetFirmwareVersion"]}
{"id": "C59", "title": "Socket options", "statement": "Cellular_CommonSocketSetSockOpt changes exactly the addressed option, only for the right option length, level and (for the local port and PDN context id) only before the socket is connected; everything else is refused with no change.", "quantifier": "all options, levels, lengths, values, states", "why_tests_cant": "All combinations.", "anchors": ["source/cellular_common_api.c:Cellular_CommonSocketSetSockOpt"]}
{"id": "C60", "title": "Callbacks registered last are the ones called", "statement": "After registering event or socket callbacks, events are delivered to the last registered callback and context of that kind and to no other.", "quantifier": "all histories of registrations", "why_tests_cant": "Histories.", "anchors": ["source/cellular_common_api.c:Cellular_CommonRegisterUrcNetworkRegistrationEventCallback", "source/cellular_common_api.c:Cellular_CommonSocketRegisterDataReadyCallback"]}
{"id": "C61", "title": "Radio on/off sends the right command", "statement": "Cellular_RfOn sends exactly AT+CFUN=1 and Cellular_RfOff exactly AT+CFUN=4, once per call, and report success exactly if the modem accepts the command.", "quantifier": "all library states and modem answers", "why_tests_cant": "A test sees one modem; the property ranges over all answers and all earlier traffic.", "anchors": ["source/cellular_3gpp_api.c:Cellular_CommonRfOn", "source/cellular_3gpp_api.c:Cellular_CommonRfOff"]}
{"id": "C62", "title": "Every command returns", "statement": "A command (or two-step data transfer) whose turn has come returns after a bounded number of its own steps whatever the modem, the transport and other threads do: it never waits for ever, and a waiting caller waits only for a command that itself returns.", "quantifier": "all schedules, modem and transport behaviours", "why_tests_cant": "Absence of deadlock over all interleavings.", "anchors": ["source/cellular_pkthandler.c:_Cellular_AtcmdRequestTimeoutWithCallbackRaw", "source/cellular_pkthandler.c:_Cellular_DataSendWithTimeoutDelayRaw", "source/cellular_pkthandler.c:_Cellular_PktHandlerAcquirePktRequestMutex"]}
{"id": "C63", "title": "The service status is a consistent snapshot", "statement": "The registration status, RAT and rejection information reported to any thread are those of one moment between complete registration messages: never a mixture of two messages or the middle of one.", "quantifier": "all schedules of the receive task and any number of callers, all registration texts", "why_tests_cant": "Torn reads appear only in rare interleavings.", "anchors": ["source/cellular_3gpp_api.c:atcmdQueryRegStatus", "source/cellular_3gpp_api.c:_Cellular_RecvFuncGetNetworkReg", "source/cellular_3gpp_urc_handler.c:Cellular_CommonUrcProcessCreg", "source/cellular_common.c:_Cellular_GetCurrentRat"]}
{"id": "C64", "title": "Raw AT command", "statement": "Cellular_CommonATCommandRaw sends exactly the given text once with the given type and prefix, hands exactly the response lines to the callback, and succeeds exactly if the modem accepted the command and the callback did; on a closed library, without a command or with one that cannot be sent nothing is sent and an error is returned.", "quantifier": "all commands, types, prefixes, callbacks, modem answers and library states", "why_tests_cant": "Unbounded inputs and callbacks.", "anchors": ["source/cellular_common_api.c:Cellular_CommonATCommandRaw", "source/cellular_common.c:_Cellular_TimeoutAtcmdRequestWithCallback", "source/cellular_common.c:_Cellular_GetCurrentRat"]}
{"id": "C65", "title": "No receive notification is lost", "statement": "Whenever the transport calls the library's receive callback, the receive task will read: if later it waits again with no event pending, it has read since that call until the transport reported no more byte.", "quantifier": "all schedules of the caller, the receive task and the transport's callback", "why_tests_cant": "Lost wake-ups depend on the interleaving.", "anchors": ["source/cellular_pktio.c:_pktioReadThread", "source/cellular_pktio.c:_Cellular_PktRxCallBack"]}
{"id": "C66", "title": "Start-up and shutdown end", "statement": "Starting the receive task returns once the task has tried to open the transport, and Cellular_Cleanup returns, with the task ended, after a bounded number of steps of caller and task.", "quantifier": "all schedules", "why_tests_cant": "Liveness over all schedules.", "anchors": ["source/cellular_pktio.c:_Cellular_PktioShutdown", "source/cellular_pktio.c:_PktioInitProcessReadThreadStatus", "source/cellular_pktio.c:_pktioReadThread"]}
{"id": "C67", "title": "An unanswered query is not a success", "statement": "Each query of the 3GPP API (network time, SIM lock, PSM, eDRX, IP address, registered network, modem information, SIM information) whose command cannot be sent, times out, is refused or is accepted without the requested line returns an error, sends each command at most once, and leaves the caller's object either unchanged or at the documented empty value; the multi-command queries succeed only if every command was answered, in order.", "quantifier": "all modem answers, library and caller data", "why_tests_cant": "Ranges over all behaviours of the modem.", "anchors": ["source/cellular_3gpp_api.c:Cellular_CommonGetNetworkTime", "source/cellular_3gpp_api.c:Cellular_CommonGetSimCardLockStatus", "source/cellular_3gpp_api.c:Cellular_CommonGetPsmSettings", "source/cellular_3gpp_api.c:Cellular_CommonGetEidrxSettings", "source/cellular_3gpp_api.c:Cellular_CommonGetIPAddress", "source/cellular_3gpp_api.c:Cellular_CommonGetRegisteredNetwork", "source/cellular_3gpp_api.c:Cellular_CommonGetModemInfo", "source/cellular_3gpp_api.c:Cellular_CommonGetSimCardInfo"]}
{"id": "C68", "title": "AT string helpers refuse NULL, empty and over-long texts", "statement": "Every helper of cellular_at_core.h called with a NULL argument, an empty text or a text longer than 256 characters returns BAD_PARAMETER, stores no result, leaves the caller's pointer where it was and writes nothing; on any other text Cellular_ATIsStrDigit succeeds and answers true exactly when every character is a decimal digit.", "quantifier": "all texts, positions, destination objects, allocators", "why_tests_cant": "Ranges over all texts and objects.", "anchors": ["source/cellular_at_core.c:validateString", "source/cellular_at_core.c:Cellular_ATIsStrDigit", "source/cellular_at_core.c:Cellular_ATHexStrToHex"]}
{"id": "C69", "title": "No deadlock on the library's mutexes", "statement": "From Cellular_Init to Cellular_Cleanup, whatever calls any number of tasks make, whatever the modem sends and however the tasks are scheduled, no task waits for ever for a mutex of the library or for the receive task: every call returns. This also holds for calls made from callbacks.", "quantifier": "all numbers of tasks, call sequences, received data, callbacks, schedules", "why_tests_cant": "Deadlocks depend on the interleaving; tests see a few.", "anchors": ["source/cellular_common.c:libOpen", "source/cellular_common.c:libClose", "source/cellular_common.c:_Cellular_CheckLibraryStatus", "source/cellular_pkthandler.c:_Cellular_PktHandler_AtcmdRequestWithCallback", "source/cellular_3gpp_urc_handler.c:Cellular_CommonUrcProcessCreg", "source/cellular_pktio.c:_preprocessInputBuffer"]}
{"id": "C70", "title": "API results are a function of the modem's byte stream's meaning, not of its cutting", "statement": "For every sequence of requests the library makes over a transport: if the bytes that arrive while a request is pending consist of lines of its response and unsolicited codes in any order, followed by a final result code and anything else, then - however they are cut into reads, and whatever complete lines arrive between requests - the request returns exactly the lines of its response (or the error), a request that gets only unsolicited codes times out, the modem is sent exactly the commands each followed by CR, and every sequence of API calls, with any arguments and with registration codes in between, gets the results, leaves the contents in the caller's objects and makes the requests it would with a modem that hands its answers over directly; in particular API queries (network time, SIM lock, PSM, eDRX, modem information) return exactly the values on the wire.", "quantifier": "all modems, request sequences, cuts into reads, interleavings with unsolicited codes", "why_tests_cant": "Ranges over all histories, cut points and interleavings; composes transport, parser and API.", "anchors": ["source/cellular_pkthandler.c:_Cellular_AtcmdRequestTimeoutWithCallbackRaw", "source/cellular_pktio.c:_handleRxDataEvent", "source/cellular_pktio.c:_Cellular_PktioSendAtCmd", "source/cellular_3gpp_api.c:Cellular_CommonGetNetworkTime"]}
{"id": "C71", "title": "An answer is made of what arrived while its request was pending", "statement": "Every line of the answer a request returns arrived while that request was pending, whatever happened to earlier requests (answered, refused, timed out).", "quantifier": "all request histories and byte streams", "why_tests_cant": "A history property: needs a request that times out in the middle of its answer before.", "anchors": ["source/cellular_pktio.c:_handleMsgType", "source/cellular_pktio.c:_pktioReadThread", "source/cellular_pkthandler.c:_Cellular_AtcmdRequestTimeoutWithCallbackRaw"]}
{"id": "C72", "title": "Every line reaches exactly the registered function it is meant for", "statement": "While no command is pending, whatever bytes the modem sends and however they are cut into reads: for every complete line, in order, exactly one registered function is called exactly once with the right text - the URC handler of its name with what follows the colon, the generic callback with the whole line, or the undefined-response callback with the whole line - and nothing else is called. A line the undefined-response callback refuses (or for which none is registered) costs at most itself. While a command is pending the same holds for the unsolicited codes between the lines of its response, and the lines of the response call no registered function.", "quantifier": "all byte streams, cuts into reads, URC tables, callbacks", "why_tests_cant": "Ranges over all streams and cut points and composes the receive path with table lookup and dispatch.", "anchors": ["source/cellular_pkthandler.c:_Cellular_HandlePacket", "source/cellular_pkthandler.c:_handleUndefinedMessage", "source/cellular_pkthandler.c:_processUrcPacket", "source/cellular_pktio.c:_handleMsgType", "source/cellular_common.c:_Cellular_GenericCallback"]}
{"id": "C73", "title": "The input buffer callback sees every unprocessed byte and hides what it consumes", "statement": "With an input buffer callback registered, however the stream is cut into reads: bytes the callback consumed are never taken for text, the bytes behind them are processed as if the consumed ones had not been there, a text the callback declines is processed as without a callback, a text it wants more of is kept whole and offered again with the bytes that follow, and an error of the callback throws away the bytes received so far and nothing else.", "quantifier": "all callbacks, byte streams and cuts into reads", "why_tests_cant": "Frames may contain any bytes, line ends included, and may be cut anywhere; the effect depends on all cut points.", "anchors": ["source/cellular_pktio.c:_preprocessInputBuffer", "source/cellular_pktio.c:_handleCallbackResult", "source/cellular_pktio.c:_handleAllReceived", "source/cellular_common.c:_Cellular_RegisterInputBufferCallback"]}
{"id": "C74", "title": "The receive path neither leaks nor misuses heap memory", "statement": "For every history of received bytes and commands: every heap block the library allocates while receiving (copies of unsolicited lines, response records and their lines) is released exactly once and never used afterwards; at any time the blocks held are exactly those of the response being collected, and after the receive task has ended none is held. What the registered functions are told does not depend on the allocator. If an allocation for a response fails the program stops at the configured assertion; a failed allocation for an unsolicited line only costs that line.", "quantifier": "all histories of reads and commands, allocators, allocation failures, and uses of the heap by the registered functions", "why_tests_cant": "Ranges over all histories and allocation failures; a leak or a release of a dead block on one path shows up only after long runs.", "anchors": ["source/cellular_pktio.c:_saveData", "source/cellular_pktio.c:_Cellular_AtResponseNew", "source/cellular_pktio.c:_Cellular_AtResponseFree", "source/cellular_pktio.c:_handleMsgType", "source/cellular_pktio.c:_pktioReadThread", "source/cellular_pkthandler.c:_processUrcPacket"]}
{"id": "C75", "title": "A response callback is given the buffer of its own request", "statement": "Whenever the library calls a response callback, the data pointer and the length it passes are those that were given with the request that gave the callback, for every schedule of any number of requesting threads and the receive task; the callback never works on the buffer of another request, in particular not of one that has returned.", "quantifier": "all schedules of calling threads and the receive task, all modem behaviour, all orders of evaluation of the call's arguments", "why_tests_cant": "The three values are read one by one without the mutex; whether another request can get in between depends on the schedule.", "anchors": ["source/cellular_pkthandler.c:_convertAndQueueRespPacket", "source/cellular_pkthandler.c:_Cellular_AtcmdRequestTimeoutWithCallbackRaw", "source/include/private/cellular_common_internal.h:pPktUsrData"]}
{"id": "C76", "title": "From bytes to the registration record", "statement": "Whatever the modem sends, in whatever pieces it is read, between and during any sequence of requests: the registration status, location, access technology and rejection cause the library keeps, and the calls of the registration event callback, are exactly those of the registration reports contained in the bytes - unsolicited +CREG/+CGREG/+CEREG codes with any combination of optional fields, and answers to registration queries -, applied one after the other in the order of arrival (those in the response to a query when it is complete); nothing else that arrives changes them.", "quantifier": "all byte streams made of lines, all cuts into reads, all sequences of requests, all forms of reports, all port tables", "why_tests_cant": "Ranges over all streams, their cuts, and histories of requests.", "anchors": ["source/cellular_pktio.c:_handleRxDataEvent", "source/cellular_pkthandler.c:_processUrcPacket", "source/cellular_3gpp_urc_handler.c:_parseRegStatusInRegStatusParsing", "source/cellular_3gpp_urc_handler.c:Cellular_CommonUrcProcessCereg", "source/cellular_3gpp_api.c:_Cellular_RecvFuncGetNetworkReg"]}
{"id": "C77", "title": "Whatever the modem sends", "statement": "Whatever bytes the modem sends, at whatever time and in whatever pieces they are read - endless lines, control characters, answers to questions nobody asked, wrong answers, none at all -, every sequence of API calls with any arguments runs without undefined behaviour: every call returns, only the buffers of the library and the objects of the caller are accessed, unsolicited codes reach the functions of the port as NUL-terminated texts, and the modem is sent the commands of the library and nothing else.", "quantifier": "all byte streams (also depending on the requests made), all cuts into reads within what the transport is asked for, all sequences of API calls and arguments, all port tables, all buffer sizes", "why_tests_cant": "Ranges over all byte streams and histories; a crash may need one particular malformed line at one particular moment.", "anchors": ["source/cellular_pktio.c:_handleRxDataEvent", "source/cellular_pkthandler.c:_processUrcPacket", "source/cellular_pkthandler.c:_Cellular_AtcmdRequestTimeoutWithCallbackRaw", "source/cellular_3gpp_api.c:_Cellular_RecvFuncGetEidrxSettings", "source/cellular_3gpp_api.c:_Cellular_RecvFuncIpAddress"]}
{"id": "C78", "title": "Data go out only with the modem's consent, and unchanged", "statement": "A data send - a command that announces the data, then, when the modem has accepted it by its prompt or result code, the data and an end pattern - never writes a byte of the data before the modem has accepted that command, whatever the modem sends and however its bytes are cut into reads; what is written is the command, then the data from their first byte, unchanged and in one piece even if they contain line ends or text that looks like a command, then, only if all data were taken, the end pattern. If the transport takes all bytes, the status is what the modem reports about the data (success, error, or a timeout if it reports nothing) and the number of bytes sent is their length; if the modem does not accept, the failure is reported and nothing but the command was written. In both cases the library is ready for the next data send, so this holds for any sequence of them, with unsolicited codes in between.", "quantifier": "all byte streams and cuts into reads, all prompts and prompt callbacks, token tables, commands, data, end patterns, short writes of the transport, all sequences of data sends", "why_tests_cant": "The prompt is not a line: it is recognised in whatever part of it has been read, between lines of any other kind; which bytes arrive together is up to the timing.", "anchors": ["source/cellular_pkthandler.c:_Cellular_AtcmdDataSend", "source/cellular_pkthandler.c:_Cellular_TimeoutAtcmdDataSendSuccessToken", "source/cellular_pkthandler.c:_Cellular_DataSendWithTimeoutDelayRaw", "source/cellular_pktio.c:_Cellular_PktioSendData", "source/cellular_pktio.c:_preprocessLine"]}
{"id": "C79", "title": "Tokens separated by any of several characters", "statement": "Cellular_ATGetSpecificNextTok with a string of delimiter characters returns the text before the first of them (an empty token if the text starts with one), leaves the caller's pointer at the text after that delimiter (at the end of the text if there is none), and changes nothing outside the text.", "quantifier": "all valid texts, all delimiter strings", "why_tests_cant": "Ranges over all texts and delimiter sets; the outcome depends on which delimiters the text starts with, how many, and on the length of the token after them.", "anchors": ["source/cellular_at_core.c:Cellular_ATGetSpecificNextTok"]}
{"id": "C80", "title": "Data fetched from a socket arrive unchanged, in any session", "statement": "A data receive - a command whose response contains headers, each followed by as many bytes of data as it announces, among lines of the response and unsolicited codes, and at the end a result code - hands its caller exactly the lines, headers and blocks of data of the response, in order and unchanged, even if data contain line ends, NUL bytes, result codes, unsolicited codes or headers; it reports the modem's error if the result code is one and a timeout if only unsolicited codes arrive. Afterwards the library is ready for the next job. So in any sequence of requests, data sends and data receives, with unsolicited codes in and between them, each reports what the modem means and exactly the commands, and the data of accepted data sends, are written.", "quantifier": "all responses, data, numbers and sizes of blocks (up to the size of the receive buffer), all cuts of the bytes into reads, all header formats and data prefix callbacks that recognise them, token tables, all sequences of jobs", "why_tests_cant": "Data are arbitrary bytes and may look like anything the protocol uses; where reads end - inside a header, its line end, the data - is up to the timing, and every combination takes another path through the parser.", "anchors": ["source/cellular_pkthandler.c:_Cellular_TimeoutAtcmdDataRecvRequestWithCallback", "source/cellular_pkthandler.c:_Cellular_AtcmdRequestTimeoutWithCallbackRaw", "source/cellular_pktio.c:_handleData", "source/cellular_pktio.c:_preprocessLine", "source/cellular_pktio.c:_handleAllReceived"]}
{"id": "C81", "title": "API calls that overlap Cellular_Cleanup", "statement": "While one task calls Cellular_Cleanup, other tasks may be inside API calls or begin new ones. A call that begins after Cellular_Cleanup has begun sends nothing to the modem and does not report success; a call already going on sends at most the one command it is about to send; the request in progress is waited for and its response queue is not deleted under it; a pending request does not keep Cellular_Cleanup from returning; and no call uses the transport, a mutex, the queue or the context after it was closed, destroyed, deleted or freed.", "quantifier": "all numbers of tasks, all sequences of calls, all interleavings with Cellular_Cleanup and with the receive task's shutdown, all answers and time-outs", "why_tests_cant": "the property is about every interleaving of the status checks, the request and the steps of the cleanup; a test runs one schedule, and the dangerous windows are a few instructions wide", "anchors": ["source/cellular_common.c: libClose, _Cellular_CheckLibraryStatus, _Cellular_LibCleanup", "source/cellular_pkthandler.c: _Cellular_PktHandlerCleanup, _Cellular_PktHandler_AtcmdRequestWithCallback", "source/cellular_pktio.c: _Cellular_PktioShutdown, _pktioReadThread, _Cellular_PktioSendAtCmd"]}
{"id": "C82", "title": "Concurrent requests over the byte stream", "statement": "Any number of tasks make requests while the receive task works on the bytes of the transport in its one buffer. Whatever the requests do in the meantime - start, complete, time out in the middle of a line - receiving stays inside the buffer; the lines taken up are exactly the lines of the byte stream, in order and whole, however the transport splits it into reads, and with a callback that recognises announced data the stream is divided into whole lines and whole blocks of a header and exactly the announced bytes, and a prompt that a data send callback recognises is taken up without waiting for a line end, only for the request that has this callback; the texts a response callback is given are, byte for byte, lines of that stream received during its own request; every execution is one in which the receive task is handed complete lines, so the guarantees on exclusion, results, callbacks and returns of requests (C22-C26) hold of the byte stream.", "quantifier": "all numbers of tasks, all requests, all byte streams and divisions into reads, all buffer sizes, all interleavings of the tasks with the steps of the receive task, all time-outs, all ports whose callbacks stay in the text given to them", "why_tests_cant": "buffer contents, pending command, response record and callback are changed by different tasks at many points of the receive loop; a test fixes one stream, one division into reads and one schedule", "anchors": ["source/cellular_pktio.c: _handleRxDataEvent, _handleAllReceived, _preprocessLine, _handleMsgType, _handleData, _getNextLine, _saveData", "source/cellular_pkthandler.c: _Cellular_AtcmdRequestTimeoutWithCallbackRaw, _convertAndQueueRespPacket, _Cellular_TimeoutAtcmdDataRecvRequestWithCallback"]}
{"id": "C83", "title": "An answer is complete and in order", "statement": "Any number of tasks make requests. The lines the response callback of a request is given are all the lines of contents of the answer that arrived since its command was sent, byte for byte and in the order of arrival (only the first one, if the command type expects just one), up to the first line that can end the answer, each header that announces data followed by exactly these data; unsolicited codes in between are left out and nothing else is. The result a request takes is that of this first ending line: success for a success code (of the port or of the request), failure for an error code, success for the single line of an answer without result code, or the verdict of the response callback.", "quantifier": "all numbers of tasks, all requests, with or without data prefix callbacks, all interleavings, all modem lines and byte streams and divisions into reads, all command types and token tables, for histories in which no request timed out and the modem is silent while a command is being sent", "why_tests_cant": "the receive task classifies each line by members that other tasks change at any time; completeness of the answer must hold for every interleaving, every division of the stream and every mixture of unsolicited codes with the answer", "anchors": ["source/cellular_pktio.c: _handleAllReceived, _handleMsgType, _Cellular_ProcessLine, _processIntermediateResponse, _getMsgType", "source/cellular_pkthandler.c: _convertAndQueueRespPacket, _Cellular_AtcmdRequestTimeoutWithCallbackRaw, _handleCommand"]}
{"id": "C84", "title": "The service status reflects every registration report", "statement": "Cellular_GetServiceStatus, called after any requests, returns success and the registration state (status of both domains, access technology, rejections) that results from all registration reports the modem has sent since the library was opened, applied in the order in which they were heard: unsolicited codes between calls, between the lines of answers and between the queries of this very call, and the answers themselves, up to the answer of the last registration query. The EPS registration is queried exactly if the modem is not registered for packet data after the CS and PS queries. Only if the CS query, or the EPS query when needed, is not answered, the caller's registration members stay as they were. A NULL pointer or a library that is not open is refused without sending anything.", "quantifier": "all histories of requests, all modems that answer requests or stay silent and report registration well-formedly, all divisions of their bytes into reads, all mixtures of reports with answers, all ports with the registration codes in their table, all buffer sizes that hold the unread text", "why_tests_cant": "the result depends on every report received since the library was opened, at every place of the byte stream and in every order; a test fixes one session", "anchors": ["source/cellular_3gpp_api.c: Cellular_CommonGetServiceStatus, atcmdQueryRegStatus, queryNetworkStatus, atcmdUpdateMccMnc, _Cellular_RecvFuncGetNetworkReg", "source/cellular_3gpp_urc_handler.c: _Cellular_ParseRegStatus, Cellular_CommonUrcProcessCreg, Cellular_CommonUrcProcessCgreg, Cellular_CommonUrcProcessCereg", "source/cellular_pktio.c: _handleAllReceived", "source/cellular_pkthandler.c: _processUrcPacket, _convertAndQueueRespPacket"]}
{"id": "C85", "title": "A request that times out unanswered does no harm", "statement": "Any number of tasks make requests and some of them time out. If nothing of the answer to a request that timed out was taken in before its command was closed - in particular if the modem sent no line at all between the sending of its command and its return - then the requests after it are not affected: every status a request takes and every line its callback is given was received after its own bytes were sent, the lines are all the lines of the answer in order, the status is that of the first line that can end it, a callback runs at most once and only while its own request is in progress and is given the user data of its own request, and no callback is called through a NULL pointer. Between requests no command is open and nothing of an answer is kept. An answer that arrives after the request that timed out returned, and before the next one is sent, is nobody's.", "quantifier": "all numbers of tasks, all requests, all interleavings, any number of time-outs at any moment, all modem lines and byte streams and divisions into reads, all token tables and callbacks; for histories in which the transport accepts all data and (where stated) the modem is silent while a command is being sent", "why_tests_cant": "a time-out can fall between any two steps of the receive task; a test exercises a few of these moments, and that no trace of the request stays behind must hold at every one of them and for all requests that follow", "anchors": ["source/cellular_pkthandler.c: _Cellular_AtcmdRequestTimeoutWithCallbackRaw, _Cellular_DataSendWithTimeoutDelayRaw, _Cellular_TimeoutAtcmdDataRecvRequestWithCallback", "source/cellular_pktio.c: _handleAllReceived, _handleMsgType, _Cellular_ProcessLine, _processIntermediateResponse"]}
{"id": "C86", "title": "No input keeps the receive task busy", "statement": "Whatever bytes come from the modem, in whatever pieces, whatever the token tables and callbacks say and whatever the other tasks do meanwhile, the receive task gets back to waiting for the transport after a bounded number of its own steps, and the bound depends on the size of the receive buffer only, not on the input: there is no endless loop over the bytes in hand. A data send prefix callback must not claim that there is more text than it was given, and callbacks must return.", "quantifier": "all reachable states, all byte streams and divisions into reads, all token tables, callbacks and results of callbacks, all interleavings, all buffer sizes", "why_tests_cant": "the claim is about every byte string, every partition and every state of the receive buffer; one combination for which the line loop does not advance hangs the library for good", "anchors": ["source/cellular_pktio.c: _handleAllReceived, _preprocessLine, _preprocessInputBuffer, _getNextLine, _handleData, _handleRxDataEvent"]}
{"id": "C87", "title": "A request does not time out if its answer has come", "statement": "No complete answer is overlooked: while a request waits for its answer and no result is there for it, none of the lines that came since the bytes of its step were sent ends the answer, except possibly the one line the receive task is just working on; in particular, when a request times out while the receive task waits for the transport, no line in the byte stream since the sending of the command ends its answer. The exception: a line that has no place in the answer (a line of contents too many, or for a command that has none) and that the port's handler for undefined lines refuses; after it the answer is overlooked and the request times out.", "quantifier": "all numbers of tasks, all requests, with or without data prefix callbacks, all interleavings and moments of time-outs, all modem lines, byte streams and divisions into reads, all token tables and callbacks; for histories in which the modem is silent while a command is being sent and earlier time-outs were silent", "why_tests_cant": "an answer is overlooked by an unlucky interleaving of the receive task with the requesting tasks, or by an unlucky division of the answer into reads; no test can try them all, and a time-out in a test looks like a slow modem", "anchors": ["source/cellular_pktio.c: _handleMsgType, _Cellular_ProcessLine, _processIntermediateResponse, _handleUndefinedMessage", "source/cellular_pkthandler.c: _Cellular_AtcmdRequestTimeoutWithCallbackRaw, _convertAndQueueRespPacket, _Cellular_HandlePacket"]}

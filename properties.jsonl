{"id": "C01", "title": "A segment fetch ends at most once and then is silent", "statement": "Fetching one segment reports at most one final outcome to its caller (the Data, a Nack failure, or a timeout failure). Once it has reported an outcome, or has been cancelled, it never sends another Interest and never reports anything else, even if network callbacks that were already in flight still arrive. Nothing is swallowed: Data that arrives while the fetch is running is reported, the fetch stops only with a report or a cancellation, and what it reports did happen.", "quantifier": "for every retry configuration and every finite sequence of network events (Data, Nack with any reason, timeout, backoff timer) and cancellations, including late callbacks after cancellation", "why_tests_cant": "Tests try a handful of event orders; the claim is about every interleaving of late callbacks and cancellations.", "anchors": ["tools/chunks/catchunks/data-fetcher.cpp: DataFetcher::fetch, cancel, expressInterest, handleData, handleNack, handleTimeout"]}
{"id": "C02", "title": "Retry budget of a segment fetch", "statement": "With finite limits N (Nack retries) and T (timeout retries) a segment fetch sends at most 1+N+T Interests. It reports a timeout failure only after T+1 timeouts and it reports 'maximum number of nack retries' only after N+1 Nacks. With the limit -1 it never gives up because of that kind of event.", "quantifier": "for all limits N, T >= 0 or infinite and every finite event sequence the network can produce", "why_tests_cant": "The limits are numbers up to 1024 and the events interleave; tests check one limit and one kind of event at a time.", "anchors": ["tools/chunks/catchunks/data-fetcher.cpp: DataFetcher::handleNack, handleTimeout"]}
{"id": "C03", "title": "A running segment fetch always has exactly one thing outstanding", "statement": "As long as a segment fetch is neither finished nor cancelled, it is waiting for exactly one thing: either one Interest in the network or one backoff timer. It never stalls with nothing outstanding and never has two Interests outstanding.", "quantifier": "for every configuration and every finite sequence of events that the Face can deliver", "why_tests_cant": "Stalls depend on rare event orders; a test that passes cannot show that no order leads to a stall.", "anchors": ["tools/chunks/catchunks/data-fetcher.cpp: DataFetcher::expressInterest, handleNack, handleTimeout, cancel"]}
{"id": "C04", "title": "Congestion backoff grows and is capped", "statement": "After the k-th consecutive congestion Nack for a segment the fetch waits 2^(k-1) milliseconds before it asks again, and never more than 10 seconds.", "quantifier": "for every number k of consecutive congestion Nacks and every prior history", "why_tests_cant": "A test would need to inspect the delay after every number of Nacks; existing tests advance the clock past any delay.", "anchors": ["tools/chunks/catchunks/data-fetcher.cpp: DataFetcher::handleNack, expressInterest", "tools/chunks/catchunks/data-fetcher.hpp: MAX_CONGESTION_BACKOFF_TIME"]}
{"id": "C05", "title": "Fixed pipeline delivers each segment at most once, with the right content", "statement": "The fixed-window pipeline passes each segment number to the data callback at most once, and only after it requested that segment. New segments are requested in the order 0,1,2,... without gaps.", "quantifier": "for every pipeline size, retry limit, and event history (Data with arbitrary FinalBlockId, Nacks, timeouts, cancellation)", "why_tests_cant": "The number of interleavings over the pipeline slots is unbounded.", "anchors": ["tools/chunks/catchunks/pipeline-interests-fixed.cpp: fetchNextSegment, handleData, handleFail", "tools/chunks/catchunks/pipeline-interests.cpp: onData, getNextSegmentNo"]}
{"id": "C06", "title": "Fixed pipeline never exceeds its window", "statement": "At every moment the number of segments being fetched by the fixed pipeline is at most the configured pipeline size.", "quantifier": "for every pipeline size and event history", "why_tests_cant": "Needs all interleavings of completions and failures across slots.", "anchors": ["tools/chunks/catchunks/pipeline-interests-fixed.cpp: doRun, fetchNextSegment"]}
{"id": "C07", "title": "Fixed pipeline reports completion only when everything was received", "statement": "If the producer is consistent (content has segments 0..L, and any FinalBlockId equals L), the fixed pipeline finishes successfully only when exactly the segments 0..L have been delivered, each once.", "quantifier": "for every content length, pipeline size, subset of packets carrying FinalBlockId, and event history", "why_tests_cant": "Out-of-order arrival, early FinalBlockId and failures can combine in unboundedly many ways.", "anchors": ["tools/chunks/catchunks/pipeline-interests-fixed.cpp: handleData", "tools/chunks/catchunks/pipeline-interests.cpp: allSegmentsReceived"]}
{"id": "C08", "title": "Fixed pipeline never stalls silently", "statement": "If the fixed pipeline has neither finished nor failed nor been cancelled, some segment fetch is still running and therefore an Interest or a backoff timer is outstanding.", "quantifier": "for every pipeline size >= 1, every retry limit and every event history, with consistent or inconsistent FinalBlockIds", "why_tests_cant": "A hang is the absence of an event; a test only shows that a given schedule does not hang.", "anchors": ["tools/chunks/catchunks/pipeline-interests-fixed.cpp: handleData, handleFail, fetchNextSegment"]}
{"id": "C09", "title": "Fixed pipeline terminates with finite retries", "statement": "With a finite retry limit and a content of L+1 segments, the fixed pipeline handles only a bounded number of network events before it finishes or fails; the bound depends only on L, the pipeline size and the retry limit.", "quantifier": "for every content, pipeline size >= 1, finite retry limit and every event sequence from a consistent producer", "why_tests_cant": "Termination quantifies over all schedules; a test run can only show that one schedule terminates.", "anchors": ["tools/chunks/catchunks/pipeline-interests-fixed.cpp", "tools/chunks/catchunks/data-fetcher.cpp"]}
{"id": "C10", "title": "A failed request beyond the end of the content is harmless in the fixed pipeline", "statement": "If the producer is consistent and every request for an existing segment 0..L is eventually answered with Data, then failures of speculative requests for segments beyond L do not make the fixed pipeline fail.", "quantifier": "for every content, pipeline size and event history in which only segments beyond L fail", "why_tests_cant": "The outcome depends on the order of a failure, the first FinalBlockId and the remaining segments.", "anchors": ["tools/chunks/catchunks/pipeline-interests-fixed.cpp: handleFail, handleData, fetchNextSegment (m_hasFailure)"]}
{"id": "C11", "title": "A pipeline reports at most one failure and is silent once stopped", "statement": "Both the fixed and the adaptive pipeline invoke the failure callback at most once. After a failure, cancellation or completion no further Interest is sent and no further Data is delivered to the data callback.", "quantifier": "for every configuration and every event history, including late callbacks", "why_tests_cant": "Requires all interleavings of failures in several slots plus posted callbacks.", "anchors": ["tools/chunks/catchunks/pipeline-interests.cpp: run, cancel, onFailure", "tools/chunks/catchunks/pipeline-interests-fixed.cpp", "tools/chunks/catchunks/pipeline-interests-adaptive.cpp"]}
{"id": "C12", "title": "Adaptive pipeline delivers each segment at most once", "statement": "The adaptive pipelines (AIMD and CUBIC) pass each segment number to the data callback at most once, and only if it was requested. New segments are requested in increasing order, each segment is requested as new at most once, and once the final segment number is known nothing beyond it is requested.", "quantifier": "for every window algorithm, retry limit and event history, including duplicate Data, unsolicited Data and late callbacks", "why_tests_cant": "Retransmissions, duplicates and out-of-order arrivals can interleave in unboundedly many ways.", "anchors": ["tools/chunks/catchunks/pipeline-interests-adaptive.cpp: schedulePackets, sendInterest, handleData"]}
{"id": "C13", "title": "Adaptive pipeline reports completion only when everything was received", "statement": "With a consistent producer, the adaptive pipelines finish successfully only when exactly the segments 0..L have been delivered, each once.", "quantifier": "for every content length, window algorithm, subset of packets carrying FinalBlockId, and event history", "why_tests_cant": "Loss, retransmission and FinalBlockId discovery combine in unboundedly many ways.", "anchors": ["tools/chunks/catchunks/pipeline-interests-adaptive.cpp: handleData, handleFail", "tools/chunks/catchunks/pipeline-interests.cpp: allSegmentsReceived"]}
{"id": "C14", "title": "Adaptive pipeline's in-flight counter is exact and the window is respected", "statement": "The in-flight counter of the adaptive pipeline always equals the number of segments that were sent and are neither answered nor waiting for retransmission; in particular it never becomes negative, and after sending, the number of such segments does not exceed the congestion window.", "quantifier": "for every window algorithm and event history", "why_tests_cant": "Counter drift accumulates over rare combinations (timeout plus lifetime expiry, cancellation of queued segments).", "anchors": ["tools/chunks/catchunks/pipeline-interests-adaptive.cpp: sendInterest, enqueueForRetransmission, handleFail, cancelInFlightSegmentsGreaterThan, handleData (m_nInFlight)"]}
{"id": "C15", "title": "Adaptive pipeline respects the retry limit", "statement": "With retry limit R >= 0 the adaptive pipeline sends at most 1+R Interests for each segment; when a segment needs more, the fetch fails.", "quantifier": "for every R, every segment and event history", "why_tests_cant": "Retransmissions are triggered by three different mechanisms which interleave.", "anchors": ["tools/chunks/catchunks/pipeline-interests-adaptive.cpp: sendInterest, enqueueForRetransmission"]}
{"id": "C16", "title": "Adaptive pipeline never stalls silently", "statement": "If the adaptive pipeline has neither finished nor failed nor been cancelled, some segment is in flight, so that its RTO check or a network callback will move the fetch forward.", "quantifier": "for every window algorithm whose window is at least 1, every retry limit and every event history", "why_tests_cant": "A hang is the absence of an event; tests only exercise schedules that make progress.", "anchors": ["tools/chunks/catchunks/pipeline-interests-adaptive.cpp: handleFail, handleNack, checkRto, schedulePackets"]}
{"id": "C17", "title": "At most one window decrease per round trip", "statement": "With conservative window adaptation enabled, after the congestion window was decreased it is not decreased again because of a timeout of a segment that had already been requested at the time of the earlier decrease, and not because of a congestion mark until Data for a segment first requested after the earlier decrease has been received.", "quantifier": "for every window algorithm and event history", "why_tests_cant": "Requires relating each decrease to the whole history of earlier sends.", "anchors": ["tools/chunks/catchunks/pipeline-interests-adaptive.cpp: recordTimeout, handleData (m_recPoint, m_highInterest, m_highData)"]}
{"id": "C18", "title": "Retransmitted segments never produce RTT samples", "statement": "No RTT measurement is taken from a segment for which more than one Interest was sent (Karn's rule), and each segment yields at most one measurement.", "quantifier": "for every window algorithm and event history", "why_tests_cant": "Needs all interleavings of timeouts, duplicates and Data.", "anchors": ["tools/chunks/catchunks/pipeline-interests-adaptive.cpp: handleData (m_retxCount)"]}
{"id": "C19", "title": "AIMD window laws", "statement": "Starting from an initial window of at least 1, the AIMD window is always at least 1; a decrease leaves the threshold at least 2, sets the window to the threshold and never raises a window that was at least 2; an increase never lowers the window and grows it by at most the additive step; with reset-to-initial a decrease restores the initial window instead. In slow start n increases add n steps; in congestion avoidance a window's worth of increases adds at most one step.", "quantifier": "for every initial window >= 1, additive step >= 0, multiplicative factor in [0,1], threshold and sequence of increases and decreases", "why_tests_cant": "Real-valued state and unbounded sequences.", "anchors": ["tools/chunks/catchunks/pipeline-interests-aimd.cpp: increaseWindow, decreaseWindow", "tools/chunks/catchunks/pipeline-interests-adaptive.hpp: MIN_SSTHRESH"]}
{"id": "C20", "title": "CUBIC window laws", "statement": "The CUBIC window never drops below the initial window, an increase never lowers the window and never overshoots the larger of the current window plus one and the cubic/TCP-friendly target, and a decrease never raises the window above its previous value unless it is lifted to the initial window. After the first decrease the pipeline is never in slow start again. The TCP-friendly estimate starts at beta times the window before the decrease and grows by the amount per RTT that makes the flow as fast as Reno.", "quantifier": "for every initial window >= 1, beta in (0,1), timing of losses, RTT values and sequence of increases and decreases", "why_tests_cant": "Real-valued state with cube roots and clock values, unbounded sequences.", "anchors": ["tools/chunks/catchunks/pipeline-interests-cubic.cpp: increaseWindow, decreaseWindow"]}
{"id": "C21", "title": "In-order reassembly", "statement": "Whatever the order in which segments arrive, as long as no segment arrives twice, the bytes written so far are exactly the concatenation of the longest run of consecutive segments 0,1,2,... that has arrived. When all segments have arrived the whole content has been written, byte for byte.", "quantifier": "for every content and every arrival order of distinct segments", "why_tests_cant": "n! arrival orders for n segments.", "anchors": ["tools/chunks/catchunks/consumer.cpp: handleData, writeInOrderData"]}
{"id": "C22", "title": "End to end: exit status 0 means the exact content was written", "statement": "When ndncatchunks retrieves an object published by ndnputchunks over a network that may lose, delay, reorder, duplicate or Nack packets, standard output is at all times a prefix of the published bytes, and if ndncatchunks exits with status 0, standard output equals the published bytes.", "quantifier": "for every input byte string, segment size, pipeline type (fixed or adaptive with any window algorithm), options and network behaviour", "why_tests_cant": "Combines producer, network, pipeline and reassembly over all schedules.", "anchors": ["tools/chunks/putchunks/producer.cpp", "tools/chunks/catchunks/consumer.cpp", "tools/chunks/catchunks/pipeline-interests*.cpp", "tools/chunks/catchunks/main.cpp: main"]}
{"id": "C23", "title": "Invalid or refused content is never written", "statement": "If a Data packet fails validation ndncatchunks exits with status 5, and if it carries an application Nack it exits with status 3; in both cases no byte of that packet's content is written and nothing is written afterwards.", "quantifier": "for every position at which such a packet occurs and every event history", "why_tests_cant": "The packet can occur at any point of any schedule.", "anchors": ["tools/chunks/catchunks/consumer.cpp: handleData, ApplicationNackError, DataValidationError", "tools/chunks/catchunks/main.cpp: main"]}
{"id": "C24", "title": "Version discovery decides exactly once", "statement": "Version discovery reports exactly one result. If discovery is needed it succeeds only with the name found in a well-formed metadata packet whose last component is a version; a name that already has a version, or disabled discovery, is used unchanged without sending any Interest.", "quantifier": "for every name, option setting and network event history", "why_tests_cant": "All interleavings of retries and malformed metadata.", "anchors": ["tools/chunks/catchunks/discover-version.cpp: run, handleData"]}
{"id": "C25", "title": "Segmentation is lossless", "statement": "Splitting an input into segments and concatenating the segment contents gives back the input; the number of segments is max(1, ceil(length/size)); every segment except the last has exactly the maximum size; every segment carries FinalBlockId equal to the last segment number.", "quantifier": "for every input byte string (including the empty one) and every segment size >= 1", "why_tests_cant": "Boundary cases at every multiple of the segment size; inputs are unbounded.", "anchors": ["tools/chunks/putchunks/producer.cpp: Producer::Producer", "tests/chunks/producer.t.cpp"]}
{"id": "C26", "title": "Producer answers every segment Interest exactly once", "statement": "Every Interest under the published versioned name (or for the unversioned name or version discovery) gets exactly one reply: the requested segment if its number exists, segment 0 if no number is given, and a Nack otherwise; no Interest is answered twice and no packet outside the stored ones is ever accessed.", "quantifier": "for every published content, name and incoming Interest", "why_tests_cant": "Interest names are arbitrary sequences of arbitrary components.", "anchors": ["tools/chunks/putchunks/producer.cpp: Producer::Producer (filters), processDiscoveryInterest, processSegmentInterest"]}
{"id": "C27", "title": "Producer's Data satisfies the Interest it answers", "statement": "The Data with which the producer answers a segment Interest satisfies that Interest (the name of the Interest equals the name of the Data, or is a prefix of it when prefix matching is allowed).", "quantifier": "for every published content and every Interest that is answered with Data", "why_tests_cant": "Interest names are arbitrary; the segment number can be encoded in several ways.", "anchors": ["tools/chunks/putchunks/producer.cpp: processSegmentInterest"]}
{"id": "C28", "title": "Segment and version components round-trip", "statement": "Encoding a number as a segment or version component and decoding it gives the number back, in both naming conventions; different numbers give different components, so different segments have different names; a segment component is never taken for a version component or vice versa.", "quantifier": "for every number below 2^64 and both naming conventions", "why_tests_cant": "2^64 numbers with four different encoding widths.", "anchors": ["tools/chunks/putchunks/producer.cpp: appendSegment, appendVersion, isSegment, toSegment", "tools/chunks/catchunks/pipeline-interests*.cpp: appendSegment"]}
{"id": "C29", "title": "Ping client sends exactly n pings and finishes exactly once", "statement": "With a count n the ping client sends exactly n Interests unless stopped, with pairwise different consecutive sequence numbers (modulo 2^64), each ping yields exactly one of response, Nack or timeout, and the finish notification fires exactly once, after all n pings are resolved. Without a count it never finishes.", "quantifier": "for every n, starting sequence number and event order (responses may arrive before or after later pings are sent)", "why_tests_cant": "Responses, timers and stop requests interleave arbitrarily; the sequence number wraps at 2^64.", "anchors": ["tools/ping/client/ping.cpp: Ping::start, stop, performPing, onData, onNack, onTimeout, finish, makePingName"]}
{"id": "C30", "title": "Ping statistics account for every ping", "statement": "The reported numbers satisfy: sent = received + nacked + lost, the exit status is 0 exactly when every resolved ping got a response, and the packet loss and nack percentages are those of the counted events.", "quantifier": "for every sequence of ping results", "why_tests_cant": "All finite sequences of results.", "anchors": ["tools/ping/client/statistics-collector.cpp: recordData, recordNack, recordTimeout, computeStatistics", "tools/ping/client/main.cpp: Runner"]}
{"id": "C31", "title": "Ping statistics are the statistics of the samples", "statement": "Minimum, maximum, total and average round-trip time equal those of the recorded samples, min <= avg <= max, and the reported deviation is the population standard deviation of the samples (in exact arithmetic), in particular the value under the square root is never negative.", "quantifier": "for every non-empty sequence of round-trip times", "why_tests_cant": "Unbounded sequences of real numbers.", "anchors": ["tools/ping/client/statistics-collector.cpp: computeStatistics"]}
{"id": "C32", "title": "Ping server replies once to each Interest and stops at the limit", "statement": "Each Interest is answered with exactly one Data that has the Interest's name and a payload of exactly the configured size; the finish notification fires exactly once, when the configured number of replies is reached, and never without a limit.", "quantifier": "for every configuration and sequence of Interests", "why_tests_cant": "All sequences and counts.", "anchors": ["tools/ping/server/ping-server.cpp: PingServer, onInterest"]}
{"id": "C33", "title": "ndnpeek reports exactly one outcome", "statement": "ndnpeek's exit status is 0 exactly when a Data was received, 4 when a Nack was received, 3 on timeout; standard output is exactly the Data (or its payload) or the Nack header in the respective cases and empty otherwise; the Interest sent carries exactly the options given.", "quantifier": "for every option setting and event history", "why_tests_cant": "Timer and network events race.", "anchors": ["tools/peek/ndnpeek/ndnpeek.cpp: start, createInterest, onData, onNack, onTimeout"]}
{"id": "C34", "title": "ndnpoke reports what happened", "statement": "ndnpoke sends the Data at most once, reports success exactly when it sent the Data, timeout exactly when the time limit expired first, and registration failure exactly when registration failed.", "quantifier": "for every option setting and order of registration result, Interest arrivals and timer expiry", "why_tests_cant": "Registration result, Interests and the timer race.", "anchors": ["tools/peek/ndnpoke/ndnpoke.cpp: start, sendData, onInterest, onRegSuccess, onRegFailure"]}
{"id": "C35", "title": "ndndump never reads outside the captured bytes", "statement": "Whatever bytes a capture contains, ndndump never reads a byte outside the captured part of the packet.", "quantifier": "for every link type, captured byte string and original packet length as found in any capture file", "why_tests_cant": "The header fields are attacker controlled; fuzzing samples only finitely many packets.", "anchors": ["tools/dump/ndndump.cpp: printPacket, printEther, printLinuxSll, printPpp, printIp4, printIp6, printTcp, printUdp, printNdn"]}
{"id": "C36", "title": "ndndump name filter is exact", "statement": "With a name filter, an Interest, Data or Nack is printed if and only if its name matches the filter.", "quantifier": "for every filter, packet bytes and decoder behaviour", "why_tests_cant": "All packets and encapsulations.", "anchors": ["tools/dump/ndndump.cpp: printNdn, matchesFilter"]}
{"id": "C37", "title": "ndndump finds the NDN packet in every supported encapsulation", "statement": "For an NDN packet carried directly in Ethernet, Linux cooked capture or PPP, or in UDP or TCP over IPv4 or IPv6, ndndump decodes exactly the bytes of the NDN packet.", "quantifier": "for every payload, every address, port and option field value", "why_tests_cant": "Unbounded payloads and header field values.", "anchors": ["tools/dump/ndndump.cpp: dispatchByEtherType, dispatchByIpProto, printIp4, printIp6, printTcp, printUdp"]}
{"id": "C38", "title": "ndndump reports the true payload length", "statement": "The payload length printed for a TCP or UDP packet is the number of payload bytes according to the transport and IP headers; link-layer padding is not counted.", "quantifier": "for every IPv4/IPv6 packet with consistent headers and any amount of link-layer padding", "why_tests_cant": "Unbounded header values and padding.", "anchors": ["tools/dump/ndndump.cpp: printIp4, printIp6, printTcp, printUdp"]}
{"id": "C39", "title": "ndndump output is well formed", "statement": "Every printed packet gives exactly one line; fields are separated by exactly one delimiter, with no delimiter at the start or end or doubled; the timestamp has exactly six fractional digits and preserves the order of capture times; every skipped packet is one whose payload is empty or which the filter rejects.", "quantifier": "for every packet and option setting", "why_tests_cant": "All packets, all combinations of printed fields.", "anchors": ["tools/dump/ndndump.cpp: OutputFormatter, printTimestamp, printPacket"]}
{"id": "C40", "title": "TLV elements are read back exactly", "statement": "Encoding a TLV element and reading it back from a byte stream gives the same element and consumes exactly its bytes; type and length numbers of every width are handled.", "quantifier": "for every type number below 2^32, every value and every following byte string", "why_tests_cant": "Four length widths and unbounded values.", "anchors": ["tools/dissect/dissector.cpp: dissect", "tools/dump/ndndump.cpp: printNdn (Block::fromBuffer)"]}
{"id": "C41", "title": "ndn-dissect prints every element once, in order", "statement": "For a well-formed input, ndn-dissect prints exactly one line per TLV element in document order, indented by its nesting depth, with its type number and size, and with the value for elements without sub-elements.", "quantifier": "for every forest of TLV elements", "why_tests_cant": "Unbounded nesting and branching.", "anchors": ["tools/dissect/dissector.cpp: dissect, printBlock, printType, printBranches"]}
{"id": "C42", "title": "ndn-dissect draws the tree correctly", "statement": "In each line the branch symbol at every level tells whether more siblings follow at that level: a vertical bar or tee if there are, a blank or corner if not.", "quantifier": "for every forest of TLV elements", "why_tests_cant": "Unbounded nesting and branching.", "anchors": ["tools/dissect/dissector.cpp: printBranches, printBlock (m_branches)"]}
{"id": "C43", "title": "ndn-dissect reports where decoding failed", "statement": "If the input is a sequence of well-formed elements followed by bytes that are not a well-formed element, all leading elements are printed and the reported error offset is the total size of the leading elements.", "quantifier": "for every sequence of elements followed by any malformed rest", "why_tests_cant": "Unbounded inputs.", "anchors": ["tools/dissect/dissector.cpp: dissect", "tools/dissect/main.cpp"]}
{"id": "C44", "title": "Command-line values are validated before use", "statement": "Each tool either rejects its command line with its documented exit status and sends no packet, or runs with option values in the documented ranges.", "quantifier": "for every combination of option values accepted by the option parser", "why_tests_cant": "Cross product of all option values.", "anchors": ["tools/chunks/catchunks/main.cpp", "tools/chunks/putchunks/main.cpp", "tools/ping/client/main.cpp", "tools/ping/server/main.cpp", "tools/peek/ndnpeek/main.cpp", "tools/peek/ndnpoke/main.cpp", "tools/dump/main.cpp"]}
{"id": "C45", "title": "Throughput is displayed in the right unit", "statement": "The displayed throughput value times its unit equals the true throughput, and the value is below 1000 unless the largest unit is reached.", "quantifier": "for every non-negative throughput", "why_tests_cant": "Real-valued input.", "anchors": ["tools/chunks/catchunks/pipeline-interests.cpp: formatThroughput"]}
{"id": "C46", "title": "Stopping a pipeline from inside its data callback is safe", "statement": "A data callback may stop the pipeline that invoked it; this leads to no access to destroyed state.", "quantifier": "for every event history and every callback invocation at which the callback stops the pipeline", "why_tests_cant": "Undefined behaviour may go unnoticed in a test run.", "anchors": ["tools/chunks/catchunks/pipeline-interests-adaptive.cpp: handleData", "tools/chunks/catchunks/pipeline-interests-fixed.cpp: handleData", "tools/chunks/catchunks/pipeline-interests.cpp: cancel"]}
{"id": "C47", "title": "Late network callbacks never crash the adaptive pipeline", "statement": "A Nack or timeout callback that arrives for a segment which the pipeline no longer tracks is ignored.", "quantifier": "for every event history including callbacks delivered after their Interest was cancelled", "why_tests_cant": "Requires a callback to be already queued when its Interest is cancelled.", "anchors": ["tools/chunks/catchunks/pipeline-interests-adaptive.cpp: handleNack, handleLifetimeExpiration, enqueueForRetransmission"]}
{"id": "C48", "title": "Transfer summary counts what happened", "statement": "The counters that the adaptive pipeline prints at the end (Interests sent, retransmissions, window decreases by cause, segments and bytes received, congestion marks) equal the numbers of the corresponding events of the transfer.", "quantifier": "for every window algorithm and event history", "why_tests_cant": "Counters are maintained at many places; agreement on all histories cannot be enumerated.", "anchors": ["tools/chunks/catchunks/pipeline-interests-adaptive.cpp: sendInterest, handleData, recordTimeout, printSummary", "tools/chunks/catchunks/pipeline-interests.cpp: onData, printSummary"]}
{"id": "C49", "title": "Failure messages of the adaptive pipeline are true", "statement": "If the adaptive pipeline reports that no final segment number was found, no delivered packet carried one; if it reports a Nack for a segment, such a Nack arrived for a segment that was requested; if it reports that the retry limit was reached for a segment, that segment was requested again at least as often as the limit says and was never delivered.", "quantifier": "for every window algorithm, retry limit and event history", "why_tests_cant": "The reason may be stored and reported much later, after other failures and deliveries.", "anchors": ["tools/chunks/catchunks/pipeline-interests-adaptive.cpp: handleFail, handleNack, handleData, sendInterest"]}
{"id": "C50", "title": "A failed request beyond the end of the object does not disturb an adaptive transfer", "statement": "If the object is retrievable and only requests for segments that do not exist are answered by fatal Nacks, the adaptive pipeline neither reports a failure nor stalls.", "quantifier": "for every window algorithm, object and event history with unlimited retries in which fatal Nacks hit only segments beyond the end", "why_tests_cant": "Depends on the order of losses, window decreases and Nacks before the FinalBlockId is known.", "anchors": ["tools/chunks/catchunks/pipeline-interests-adaptive.cpp: handleFail, handleData, cancelInFlightSegmentsGreaterThan"]}
{"id": "C51", "title": "The adaptive pipeline repeats an Interest only after a loss was indicated", "statement": "The Interest for a segment is repeated at most as often as a loss of that segment was indicated, by the expiry of its lifetime, a congestion Nack or an RTO check that finds it outstanding for longer than its RTO.", "quantifier": "for every window algorithm, segment and event history", "why_tests_cant": "Spurious retransmissions do not change the result of a transfer and go unnoticed in tests.", "anchors": ["tools/chunks/catchunks/pipeline-interests-adaptive.cpp: checkRto, handleNack, handleLifetimeExpiration, enqueueForRetransmission, schedulePackets"]}
{"id": "C52", "title": "The window reacts to a loss", "statement": "When a segment is lost that was requested for the first time after the latest decrease of the window, the window is decreased.", "quantifier": "for every window algorithm and event history", "why_tests_cant": "Depends on the relation between the lost segment and the recovery point in every history.", "anchors": ["tools/chunks/catchunks/pipeline-interests-adaptive.cpp: recordTimeout, handleLifetimeExpiration, handleNack"]}
{"id": "C53", "title": "Every accepted initial window lets the transfer start", "statement": "With every option value that the program accepts, an adaptive pipeline sends an Interest for segment 0 at the start, and its window always allows at least one segment.", "quantifier": "for every initial window, step, factor and threshold that the program accepts and every event history", "why_tests_cant": "Real-valued options; a hang is visible only as absence of events.", "anchors": ["tools/chunks/catchunks/main.cpp", "tools/chunks/catchunks/pipeline-interests-adaptive.cpp: doRun, schedulePackets", "tools/chunks/catchunks/pipeline-interests-aimd.cpp", "tools/chunks/catchunks/pipeline-interests-cubic.cpp"]}
{"id": "C54", "title": "A segment accepted again does not disturb the output", "statement": "If the consumer accepts the same segment more than once, the bytes it writes are the same as if every repetition had been left out.", "quantifier": "for every order of arrivals and repetitions", "why_tests_cant": "A repeated segment after its first copy was written needs a particular interleaving.", "anchors": ["tools/chunks/catchunks/consumer.cpp: handleData, writeInOrderData"]}
{"id": "C55", "title": "A discovered name extends the requested name", "statement": "When version discovery reports success, the reported name consists of the requested name followed by one version component.", "quantifier": "for every requested name and every metadata packet that a producer may answer with", "why_tests_cant": "The metadata content is chosen by the producer; tests use honest producers.", "anchors": ["tools/chunks/catchunks/discover-version.cpp: handleData"]}
{"id": "C56", "title": "A reply of the ping server satisfies the ping client's Interest", "statement": "If ndnping and ndnpingserver use the same prefix, every Interest of the client is passed to the server's handler and the Data that the server makes for it satisfies it, so that the client sees a response.", "quantifier": "for every combination of accepted options of the two programs and every ping", "why_tests_cant": "Combinations of freshness period, stale-data option, identifiers and sequence numbers are unbounded; tests exercise the defaults.", "anchors": ["tools/ping/server/ping-server.cpp: start, onInterest", "tools/ping/client/ping.cpp: performPing, makePingName"]}
{"id": "C57", "title": "The ping client can run without end", "statement": "Without a count the ping client keeps sending pings until it is stopped; none of its counters overflows.", "quantifier": "for every number of pings sent", "why_tests_cant": "More than two billion pings are needed to see the overflow.", "anchors": ["tools/ping/client/ping.cpp: performPing", "tools/ping/client/ping.hpp: m_nSent"]}
{"id": "C58", "title": "The ping summary counts the transmitted packets", "statement": "Whenever statistics are printed, the number of packets given as transmitted is the number of Interests sent so far.", "quantifier": "for every execution and every time at which SIGQUIT arrives", "why_tests_cant": "Needs a signal at a time when responses are outstanding.", "anchors": ["tools/ping/client/statistics-collector.cpp: recordData, recordNack, recordTimeout, printSummary", "tools/ping/client/main.cpp: onQuitSignal"]}
{"id": "C59", "title": "The reported deviation is a number", "statement": "If at least one response was received, the reported standard deviation of the round-trip times is a number (not NaN), in the double arithmetic that the program uses.", "quantifier": "for every sequence of round-trip times", "why_tests_cant": "Depends on rounding errors; random samples rarely have equal round-trip times.", "anchors": ["tools/ping/client/statistics-collector.cpp: recordData, computeStatistics"]}
{"id": "C60", "title": "ndn-dissect output is faithful", "statement": "Two inputs that are sequences of TLV elements in the shortest encoding and for which ndn-dissect prints the same text are equal. Letters, digits and -._~ in values are printed as they are, other bytes as a percent sign and two hexadecimal digits.", "quantifier": "for every pair of inputs", "why_tests_cant": "Unbounded nesting and branching; pairs of inputs.", "anchors": ["tools/dissect/dissector.cpp: dissect, printBlock, printBranches"]}
{"id": "C61", "title": "ndn-dissect names types unambiguously", "statement": "Every TLV type that the NDN packet format, the certificate format or the key export format assigns is printed with its assigned name. No two TLV types are printed with the same name, except types unknown to ndn-dissect, which are called RESERVED, or UNKNOWN_APP exactly when they are in a range for applications. Types that the Wireshark dissector knows as well have the same name there, and it knows the types of the link protocol by their assigned names.", "quantifier": "for every type number", "why_tests_cant": "2^32 type numbers.", "anchors": ["tools/dissect/dissector.cpp: TLV_DICT, printType"]}
{"id": "C62", "title": "ndndump reads a capture to its end", "statement": "No packet in a capture makes ndndump stop: the packets after it are processed in the same way, and the program ends with status 0 at the end of the file.", "quantifier": "for every sequence of packets", "why_tests_cant": "One packet among unboundedly many, with chosen contents, may stop the program.", "anchors": ["tools/dump/ndndump.cpp: run, printPacket, printNdn", "tools/dump/main.cpp: main"]}
{"id": "C63", "title": "Exit statuses of ndnpeek and ndnpoke", "statement": "The exit status of ndnpeek is 0 exactly when help or version was requested or a Data was received, 2 exactly for a malformed command line, 3 exactly when the time ran out without an answer, 4 exactly when a Nack was received, 1 exactly for another error. The exit status of ndnpoke is 0 exactly when help or version was requested or a Data was sent, 2 exactly for a malformed command line, 3 exactly when the time limit expired and no Data was sent, 5 exactly when the prefix registration failed, 1 exactly for another error. Without a well-formed command line no packet is sent.", "quantifier": "for every command line and every execution", "why_tests_cant": "Every combination of option values and order of network events; scripts depend on the statuses.", "anchors": ["manpages/ndnpeek.rst: Exit Status", "manpages/ndnpoke.rst: Exit Status", "tools/peek/ndnpeek/main.cpp: main", "tools/peek/ndnpoke/main.cpp: main"]}
{"id": "C64", "title": "Wireshark shows the structure of the packet", "statement": "Every element that the Wireshark dissector shows is an NDN-TLV element at that place, entirely inside of the buffer. The children shown for an element cover its value without gap or overlap, or there are none. If the value of a shown element is a sequence of elements in the shortest encoding, these are shown, in order, with their types and values.", "quantifier": "for every buffer", "why_tests_cant": "All byte sequences, with unbounded nesting and lengths that point outside.", "anchors": ["tools/dissect-wireshark/ndn.lua: readVarNumber, getBlock, getSubBlocks, ndn.dissector"]}
{"id": "C65", "title": "Wireshark shows names unambiguously", "statement": "Two names that are shown with the same text are equal, even in different captures. The text of a name consists of unreserved characters, '%', '=' and '/'; percent-decoding the text of a generic component gives its value (with three periods added if it has only periods); names that need no escape are shown as they are.", "quantifier": "for every buffer and every pair of names", "why_tests_cant": "Pairs of names of any length with any bytes.", "anchors": ["tools/dissect-wireshark/ndn.lua: getUriFromName, getUriFromNameComponent, getUriFromSha256DigestComponent"]}
{"id": "C66", "title": "Wireshark's info column tells type and name", "statement": "The info column says Interest, Data or Nack according to the packet, or to the packet inside of the LpPacket, and shows the name of that packet.", "quantifier": "for every buffer", "why_tests_cant": "Payload bytes that happen to look like other elements are not in the test captures.", "anchors": ["tools/dissect-wireshark/ndn.lua: ndn.dissector"]}
{"id": "C67", "title": "The Wireshark dissector stays inside of the buffer", "statement": "The dissector never asks for bytes outside of the buffer.", "quantifier": "for every buffer", "why_tests_cant": "Lengths are chosen by the sender; every combination of truncations.", "anchors": ["tools/dissect-wireshark/ndn.lua: readVarNumber, getBlock, getSubBlocks, addInfo, ndn.dissector"]}
{"id": "C68", "title": "The Wireshark dissector does not fail", "statement": "No packet makes the dissector raise a Lua error.", "quantifier": "for every buffer", "why_tests_cant": "The contents are opaque bytes; only some of them look like elements that the dissector cannot show.", "anchors": ["tools/dissect-wireshark/ndn.lua: addInfo, getNonce, getHopLimit, getFinalBlockId, ndn.dissector"]}
{"id": "C69", "title": "Wireshark shows every packet of the buffer", "statement": "If the buffer is a sequence of NDN packets, each is shown; if there is no NDN packet in it, or it was not captured entirely, it is left to other dissectors.", "quantifier": "for every buffer", "why_tests_cant": "Number and position of the packets are unbounded.", "anchors": ["tools/dissect-wireshark/ndn.lua: findNdnPacket, canBeValidNdnPacket, ndn.dissector"]}
{"id": "C70", "title": "Wireshark reassembles packets that are split over segments", "statement": "If the buffer ends in the middle of a packet, more data is requested, from the beginning of that packet on; more data is requested only then.", "quantifier": "for every buffer", "why_tests_cant": "Every position at which a TCP stream may be split.", "anchors": ["tools/dissect-wireshark/ndn.lua: ndn.dissector (desegment_offset, desegment_len)"]}
{"id": "C71", "title": "Wireshark shows numbers and codes as they are", "statement": "NonNegativeInteger values of 1, 2, 4 and 8 octets are shown as the number they encode, Nonce and HopLimit likewise, and Nack reasons and cache policies by the names of the assigned codes.", "quantifier": "for every buffer and every element in it", "why_tests_cant": "2^64 values and all positions.", "anchors": ["tools/dissect-wireshark/ndn.lua: getNonNegativeInteger, getNonce, getHopLimit, getNackReason, getCachePolicyType, NDN_DICT"]}
{"id": "C72", "title": "A transfer over a usable network succeeds", "statement": "If the producer serves the object and the network does not lose too much - of the Interests that ndncatchunks may send for the metadata or for one segment not all are lost, and Nacks with a reason other than Duplicate and Congestion come only for segments that do not exist, after Data with a FinalBlockId has arrived - then ndncatchunks with the fixed pipeline never fails, cannot get stuck, and after boundedly many replies, losses and backoffs - at most 1 + N + L + 2l with pipeline size N, L segments and l losses, also if retries are unlimited - exits with status 0, the object having been written. Completion is reachable at every moment.", "quantifier": "for every input, segment size, name, retry limit, pipeline size and every execution over such a network", "why_tests_cant": "All orders and combinations of replies, losses and retransmissions; the absence of a dead end cannot be observed.", "anchors": ["tools/chunks/catchunks/consumer.cpp: run", "tools/chunks/catchunks/discover-version.cpp: run", "tools/chunks/catchunks/pipeline-interests-fixed.cpp: fetchNextSegment, handleData, handleFail", "tools/chunks/catchunks/data-fetcher.cpp: handleNack, handleTimeout", "tools/chunks/putchunks/producer.cpp: processDiscoveryInterest, processSegmentInterest"]}
{"id": "C73", "title": "A usable network suffices for the adaptive pipelines", "statement": "If the producer serves the object, announcing its end in every packet, and the network does not lose too much - no segment that exists is lost more often than the retry limit permits repeating its Interest, and fatal Nacks come only for segments that do not exist - then an adaptive pipeline never reports a failure, whatever happens to the Interests beyond the end, and at every moment the transfer can be completed by the arrival of Data for outstanding Interests.", "quantifier": "for every window algorithm whose window allows at least one segment, every option, object and execution over such a network", "why_tests_cant": "All orders of losses, Nacks, RTO checks and Data; a stall is the absence of anything to observe.", "anchors": ["tools/chunks/catchunks/pipeline-interests-adaptive.cpp: sendInterest, schedulePackets, handleNack, handleFail, checkRto", "tools/chunks/catchunks/pipeline-interests-aimd.cpp: decreaseWindow", "tools/chunks/catchunks/pipeline-interests-cubic.cpp: decreaseWindow"]}
{"id": "C74", "title": "A transfer with an adaptive pipeline over a usable network succeeds", "statement": "If ndnputchunks serves the object and the network does not lose too much - not all Interests for the metadata are lost, no existing segment is lost more often than the retry limit permits, fatal Nacks come only for segments that do not exist - then ndncatchunks with an adaptive pipeline never fails, its only possible exit status is 0 with exactly the object written, and at every moment it can still get there without further losses.", "quantifier": "for every input, segment size, name, window algorithm, option and every execution over such a network", "why_tests_cant": "All orders of losses, Nacks, RTO checks, discovery replies and Data; a stall is the absence of anything to observe.", "anchors": ["tools/chunks/catchunks/main.cpp: main", "tools/chunks/catchunks/consumer.cpp: run, handleData, writeInOrderData", "tools/chunks/catchunks/discover-version.cpp: run", "tools/chunks/catchunks/pipeline-interests-adaptive.cpp: schedulePackets, handleData, handleNack, handleFail, checkRto", "tools/chunks/putchunks/producer.cpp: processDiscoveryInterest, processSegmentInterest"]}
{"id": "C75", "title": "Interests do not stop a server", "statement": "No Interest that fits into a packet makes ndnpingserver or ndnputchunks end: every reply that they give to it also fits into a packet, with every name under the served prefix and every payload or segment size that the command line accepts.", "quantifier": "for every name, option, input, and every sequence of Interests of at most 8800 bytes", "why_tests_cant": "The sizes at which replies exceed a packet depend on names, options and signatures; tests use short names.", "anchors": ["tools/ping/server/ping-server.cpp: onInterest", "tools/ping/server/main.cpp: main", "tools/chunks/putchunks/producer.cpp: processDiscoveryInterest, processSegmentInterest", "tools/chunks/putchunks/main.cpp: main"]}
{"id": "C76", "title": "Pings and the ping server agree", "statement": "Over any network, every ping that ndnping counts as received was received and answered by ndnpingserver with its configured payload, and exit status 0 means that every ping sent was answered, as many as were asked for, and that a server limited to that many pings or fewer has stopped. Over a network that works, ndnping with the server's prefix ends with status 0 and no ping is lost.", "quantifier": "for every option of the client and the server and every order of Interests, Data, timeouts, Nacks, signals and other clients' pings", "why_tests_cant": "All interleavings of two programs and a network, for any number of pings.", "anchors": ["tools/ping/client/ping.cpp: performPing, onData, onNack, onTimeout, finish", "tools/ping/client/main.cpp: Runner", "tools/ping/client/statistics-collector.cpp: computeStatistics", "tools/ping/server/ping-server.cpp: onInterest, start, stop", "tools/ping/server/main.cpp: Runner"]}
{"id": "C77", "title": "ndnpeek and ndnpoke exchange the payload", "statement": "Over any network, if ndnpeek exits with status 0, then it has written exactly the packet that ndnpoke was asked to send (with payload only, exactly the standard input of ndnpoke), ndnpoke has sent it, and the exit status of ndnpoke can only be 0. Over a network that works, if the Data of ndnpoke satisfies the Interest of ndnpeek, then no other exit status is possible and at every moment the exchange can still be completed.", "quantifier": "for every pair of option sets, every input, and every order of registration, Interests, Data, Nacks and timeouts", "why_tests_cant": "All combinations of the options of two programs; the absence of a dead end cannot be observed.", "anchors": ["tools/peek/ndnpeek/ndnpeek.cpp: start, createInterest, onData", "tools/peek/ndnpoke/ndnpoke.cpp: start, createData, onInterest", "tools/peek/ndnpeek/main.cpp: main", "tools/peek/ndnpoke/main.cpp: main"]}
{"id": "C78", "title": "The summary of a transfer is right", "statement": "After fetching an object, the summary that ndncatchunks prints shows the number of its segments and its size. Of an adaptive pipeline, the number of timeouts is the number of Interests that expired or exceeded their RTO, the share of repeated Interests is at most 100%, not more window decreases are attributed to congestion marks or to timeouts than there were congestion marks or timeouts, and not more Interests were repeated or skipped than losses were indicated.", "quantifier": "for every object, option, window algorithm and execution", "why_tests_cant": "Every order of losses, marks, Nacks and Data; counters that are wrong do not disturb the transfer.", "anchors": ["tools/chunks/catchunks/pipeline-interests.cpp: printSummary, onData", "tools/chunks/catchunks/pipeline-interests-adaptive.cpp: printSummary, checkRto, handleNack, handleLifetimeExpiration, handleData, recordTimeout, enqueueForRetransmission"]}
{"id": "C79", "title": "From two command lines to a file and an exit status", "statement": "ndncatchunks ends with status 0 exactly when information was requested or every call of its pipeline delivered a segment and no exception occurred; with 2 exactly for a malformed command line; with 4 exactly when a statistics file cannot be opened; with 3 exactly when the first other thing delivered was an application Nack; with 1 in all other cases, and never with 5. If all packets come from one ndnputchunks started with any command line that it accepts, then what ndncatchunks writes is a prefix of what ndnputchunks read, and all of it if the status is 0; and over a network that does not lose too much the fixed pipeline can end in no other way.", "quantifier": "for every command line of both programs, every input, window algorithm, and every execution over a network that loses, delays, reorders, duplicates and caches packets, with exceptions at any time", "why_tests_cant": "The integration tests run a handful of option combinations over a perfect network.", "anchors": ["tools/chunks/catchunks/main.cpp: main", "tools/chunks/putchunks/main.cpp: main", "tools/chunks/catchunks/consumer.cpp: Consumer::run", "tools/chunks/putchunks/producer.cpp: Producer::Producer"]}
{"id": "C80", "title": "The ping client keeps its times", "statement": "ndnping sends the first ping at once and every further ping at least the interval after the one before. The time reported for a Data or a Nack is the time from the sending of this ping to the arrival, a ping is reported as timed out not before the timeout has passed, and if timers fire in time, ndnping with a count has ended when the intervals and one timeout have passed, and after SIGINT within one timeout.", "quantifier": "for every interval, timeout and count that the command line accepts, and every order and time of replies, signals and timers", "why_tests_cant": "Real time, all delays of timers and replies, intervals of years.", "anchors": ["tools/ping/client/ping.cpp: performPing, onData, onNack, onTimeout, stop", "tools/ping/client/main.cpp: main, Runner::run, cancel"]}
{"id": "C81", "title": "The output of ndnping tells what happened", "statement": "Reading the standard output of ndnping gives back the history of the execution: one line per outcome of a ping, in the order in which they happened, each telling the kind of the outcome, the sequence number, the time to within 6 parts in a million and the Nack reason. Unless the program failed, there is exactly one line of totals, and its numbers of transmitted, received and nacked packets are the numbers of those lines; the percentages are theirs to within 6 parts in a million, and 0 only if there is no such line. Exit status 0 means that there is a line and all lines are about content, status 2 that there are no totals.", "quantifier": "for every set of options, every prefix, every execution with signals at any time, in binary64 arithmetic and six-digit formatting", "why_tests_cant": "Tests of the tracer compare a few fixed lines; the claim is about every number, every interleaving and the way back from the text.", "anchors": ["tools/ping/client/tracer.cpp: onData, onNack, onTimeout", "tools/ping/client/statistics-collector.cpp: printSummary, printFull", "tools/ping/client/main.cpp: onQuitSignal, cancel"]}
{"id": "C82", "title": "The printed numbers of ndnping are consistent", "statement": "The totals say that 100% were lost only if nothing else than timeouts happened; the printed average round-trip time lies between the printed minimum and the printed maximum, which are those of the responses to within 6 parts in a million.", "quantifier": "for every execution, in binary64 arithmetic and six-digit formatting", "why_tests_cant": "The exceptions need more than a million pings or particular values of the last bits.", "anchors": ["tools/ping/client/statistics-collector.cpp: recordData, computeStatistics, printFull"]}
{"id": "C83", "title": "ndn-dissect shows the packets of ndnputchunks", "statement": "For every packet that ndnputchunks publishes, ndn-dissect reports no error and prints exactly the elements of the packet, in order, each at its depth and with the name that the NDN packet format gives to its type, and every leaf with its value: the components of the name, with the segment number in a SegmentNameComponent, the freshness period, the number of the last segment below FinalBlockId, the content, and the signature.", "quantifier": "for every prefix, input, segment and signature", "why_tests_cant": "Unboundedly many names and segment numbers; a number may happen to be the encoding of another element.", "anchors": ["tools/dissect/dissector.cpp: dissect, printBlock, TLV_DICT", "tools/chunks/putchunks/producer.cpp: Producer"]}
{"id": "C84", "title": "The failure messages of the fixed pipeline are true", "statement": "The message that the fixed pipeline passes to the failure callback says what happened: the Nack it names arrived and permits no retry, the limit of retries it names was set and is exceeded by one Nack or timeout, or the fetch of the segment it names failed; and this concerns a segment that was requested, not delivered, and is not beyond the end that the first FinalBlockId announced. That no FinalBlockId was found is reported only if no delivered Data had one.", "quantifier": "for every pipeline size, retry limit, and every order of Data, Nacks, timeouts, backoffs and cancellations", "why_tests_cant": "The message depends on what is known about the end at the moment of each failure; tests look at one order each.", "anchors": ["tools/chunks/catchunks/pipeline-interests-fixed.cpp: fetchNextSegment, handleData, handleFail", "tools/chunks/catchunks/data-fetcher.cpp: handleNack, handleTimeout"]}
{"id": "C85", "title": "The output of ndnpingserver tells what happened", "statement": "Without the option -q the standard output of ndnpingserver has exactly one line for each Interest that arrived, in their order, with the text of the last component of its name, from which a generic component can be recovered; with -q it has none. If the exit status is 0, there is exactly one line of totals, and its number is the number of Interests that arrived, all of which were answered under their names; if it is 1, there are no totals and all Interests but the last were answered.", "quantifier": "for every set of options, every sequence of Interests and signals", "why_tests_cant": "Names may contain anything, including line breaks; the counts matter for every length of a run and for the way it ends.", "anchors": ["tools/ping/server/tracer.cpp: Tracer", "tools/ping/server/main.cpp: Runner::run", "tools/ping/server/ping-server.cpp: onInterest"]}
{"id": "C86", "title": "The outputs of ndnping and ndnpingserver agree", "statement": "For every line of ndnping about content the output of ndnpingserver has a line about an Interest with the same number, and the number of processed packets in its totals is the number of its lines and not smaller than the number of content lines of ndnping.", "quantifier": "for every pair of options and every execution over a network that loses, delays, duplicates and reorders packets, with other clients", "why_tests_cant": "The tests run client and server separately.", "anchors": ["tools/ping/client/tracer.cpp: onData", "tools/ping/server/tracer.cpp: Tracer", "tools/ping/server/ping-server.cpp: onInterest, getNPings", "tools/ping/client/ping.cpp: makePingName"]}
{"id": "C87", "title": "The retransmission timer of the adaptive pipelines", "statement": "An Interest for a segment is sent again only after the lifetime of the one before has expired, a congestion Nack for the segment has arrived, or the RTO with which the one before was sent has passed. While the pipeline runs and its RTO check is not delayed by more than d, an Interest is not waited for longer than its RTO, one check interval and d: by then the Data was delivered, or the segment waits for being sent again, was given up, or is beyond the end.", "quantifier": "for every window algorithm, option, sequence of RTO values, check interval and every order and time of Data, Nacks, expirations and checks", "why_tests_cant": "Needs real time, and Nacks for old Interests while the segment waits in the queue.", "anchors": ["tools/chunks/catchunks/pipeline-interests-adaptive.cpp: checkRto, sendInterest, schedulePackets, enqueueForRetransmission, handleNack, handleLifetimeExpiration"]}
{"id": "C88", "title": "The statistics files of ndncatchunks", "statement": "The file of --log-cwnd has one row for each change of the window, in order, with the time since the start and the new window; each window follows from the one before by one increase or decrease, and the last row is the current window. The file of --log-rtt has one row for each measurement: the segment was requested exactly once, and the time is that from this Interest to the delivery of the Data; every delivered segment that was requested once has a row.", "quantifier": "for every window algorithm, option and execution", "why_tests_cant": "The files depend on every interleaving of losses, retransmissions and Data.", "anchors": ["tools/chunks/catchunks/statistics-collector.cpp: StatisticsCollector", "tools/chunks/catchunks/pipeline-interests-adaptive.cpp: handleData", "tools/chunks/catchunks/pipeline-interests-aimd.cpp: increaseWindow, decreaseWindow", "tools/chunks/catchunks/pipeline-interests-cubic.cpp: increaseWindow, decreaseWindow"]}
{"id": "C89", "title": "ndndump captures from where it is told", "statement": "ndndump opens exactly what the command line asks for and nothing else: with --read the file, with --interface the interface, in promiscuous mode unless this is switched off, and otherwise the first interface that is not a loopback interface.", "quantifier": "for every command line and every list of network interfaces", "why_tests_cant": "Depends on the machine's network interfaces; the unit tests call printPacket directly and never run().", "anchors": ["tools/dump/ndndump.cpp: run", "tools/dump/main.cpp: main"]}
{"id": "C90", "title": "Exit status and output of ndndump", "statement": "The exit status of ndndump is 2 exactly for a malformed command line, 0 exactly if help or version was asked for or the capture could be opened, its link type and the filter are accepted, no packet causes an error and libpcap reports none, and otherwise 1; with status 1 the last message on the standard error tells the error and no other does. The standard output has exactly the lines of the packets that the pcap filter lets through, in their order, up to the error if there is one, and does not depend on --verbose.", "quantifier": "for every command line, every behaviour of libpcap and every capture", "why_tests_cant": "run() is not tested; errors of libpcap are hard to provoke.", "anchors": ["tools/dump/ndndump.cpp: run", "tools/dump/main.cpp: main"]}
{"id": "C91", "title": "The default filter of ndndump lets NDN through", "statement": "Without a pcap filter on the command line ndndump shows every NDN packet in the encapsulations that its documentation lists: those with the Ethernet type of NDN, those with a TCP or UDP port of NDN over IPv4 and IPv6, and those in the PPP frames of ndnSIM. Of the other frames with TCP, UDP or another Ethernet type none is let through.", "quantifier": "for every frame, all header fields and options", "why_tests_cant": "All combinations of header lengths, ports and encapsulations; the tests do not use a pcap filter.", "anchors": ["tools/dump/ndndump.hpp: getDefaultPcapFilter", "tools/dump/ndndump.cpp: run, printPpp, dispatchByEtherType"]}
{"id": "C92", "title": "The lines of ndndump are unambiguous", "statement": "From the text that ndndump prints for a capture of Interests, Data and Nacks one can tell the number of packets shown, their order, and for each the capture time, the link type, the IP version, the transport, both addresses, whether there is an NDNLPv2 header, the kind of packet, the name, the parameters of the Interest and the Nack reason: two captures with the same text agree in all of that. No name can add or hide a line.", "quantifier": "for every pair of captures of frames that ndndump understands, all names, addresses and times", "why_tests_cant": "Two different packets that are printed alike, or a name that looks like the rest of a line, would have to be found among all names and addresses.", "anchors": ["tools/dump/ndndump.cpp: printPacket, printTimestamp, printIp4, printIp6, printUdp, printTcp, printNdn, OutputFormatter"]}
{"id": "C93", "title": "ndnpeek and ndnpoke end in time", "statement": "With an execution timeout ndnpeek and ndnpoke end when it has passed since they were started, up to the delay of timers; ndnpeek ends no later than after the lifetime of its Interest. A timeout (exit status 3) is reported only after this time, and a Data or Nack that came before is never reported as a timeout. The round-trip time that ndnpeek prints is the time that has passed since it sent the Interest, in whole milliseconds.", "quantifier": "for every sequence of events and every time at which they happen, all timeouts and lifetimes that the command line accepts, and every bound on the delay of timers", "why_tests_cant": "Depends on the order in which two timers and the network act; tests use a few values of a simulated clock, and register the prefix at once.", "anchors": ["tools/peek/ndnpeek/ndnpeek.cpp: start, onData, onNack, onTimeout", "tools/peek/ndnpoke/ndnpoke.cpp: start, onRegSuccess, onRegFailure, onInterest"]}
{"id": "C94", "title": "The statistics files can be read back and tell the truth", "statement": "The file that ndncatchunks writes for --log-cwnd is a table with the heading time, cwndsize and one row for each change of the congestion window, in order; the time is the number of seconds from the start to the change and the window the one after the change, both up to six millionths; the times do not decrease and the last window is the current one. The file of --log-rtt is a table with one row for each RTT measurement: the exact number of the segment, and in milliseconds, up to six millionths, the time from the only Interest for the segment to its Data, the RTO, the smoothed RTT and its variation. How fine the times are is limited by the six digits that are printed: after 1000 seconds two changes that are 3 ms apart have the same time.", "quantifier": "for all executions of the adaptive pipelines with a clock, all windows that are not negative, and all times; for the AIMD pipeline all options with an initial window of at least 1 and a step that is not negative", "why_tests_cant": "The text goes through double arithmetic and the formatting of floating point numbers; a test compares a few values, not the error of all of them.", "anchors": ["tools/chunks/catchunks/statistics-collector.cpp: StatisticsCollector::StatisticsCollector", "tools/chunks/catchunks/pipeline-interests-adaptive.cpp: afterCwndChange, afterRttMeasurement"]}
{"id": "C95", "title": "The printed summary can be read back and tells the truth", "statement": "The text that ndncatchunks prints when a transfer is complete can be read back: the elapsed time and the size of the object up to six millionths, the exact number of segments of the object, and the goodput in its unit. With an adaptive pipeline the numbers of congestion marks, timeouts, window decreases caused by each, repeated and skipped Interests are exact; the printed share of repeated Interests is right up to six millionths, never above 100 and 0 only if no Interest was repeated; minimum, average and maximum of the RTT are right up to half a microsecond and printed in the right order.", "quantifier": "for all objects whose size in bits is a 64 bit number, all executions with a consistent producer that complete, all elapsed times including none, and all RTT statistics", "why_tests_cant": "Combines the counters over all executions with double arithmetic and formatting.", "anchors": ["tools/chunks/catchunks/pipeline-interests.cpp: PipelineInterests::printSummary, formatThroughput", "tools/chunks/catchunks/pipeline-interests-adaptive.cpp: PipelineInterestsAdaptive::printSummary"]}
{"id": "C96", "title": "A segment fetch ends in time", "statement": "With n tolerated Nacks and t tolerated timeouts, a fetch whose timers are at most d late has ended at most (1+n+t)(lifetime+d) + n(1ms+d) after its first Interest, its outcome being reported by then, and this bound is reached for all settings. No fetch gives up because of timeouts before t+1 lifetimes have passed. With unlimited retries there is no bound.", "quantifier": "for every retry limit, lifetime, delay of the timers, and every order and time of Data, Nacks, timeouts, backoffs and cancellation", "why_tests_cant": "Real time, all combinations of losses and delays; the longest fetch takes minutes.", "anchors": ["tools/chunks/catchunks/data-fetcher.cpp: fetch, expressInterest, handleData, handleNack, handleTimeout, cancel"]}
{"id": "C97", "title": "A transfer with the fixed pipeline ends in time", "statement": "With a finite retry limit R let T = (1+2R)(lifetime+d) + R(1ms+d), where d is the largest delay of a timer. A segment that is being fetched was first requested at most T ago. Whatever producer and network do, until it stops, fails or announces the end, the pipeline receives at least one segment in each interval T; so if the object has L segments, it has stopped or announced the end after (L+1)T. With unlimited retries there is no bound.", "quantifier": "for every pipeline size, retry limit, lifetime, delay, object, and every order and time of Data, Nacks, timeouts and backoffs", "why_tests_cant": "Real time, all combinations of losses on all slots; objects of any length.", "anchors": ["tools/chunks/catchunks/pipeline-interests-fixed.cpp: doRun, fetchNextSegment, handleData, handleFail", "tools/chunks/catchunks/data-fetcher.cpp: handleNack, handleTimeout"]}
{"id": "C98", "title": "ndncatchunks ends in time", "statement": "ndncatchunks with the fixed pipeline and R retries: let T = (1+2R)(lifetime+d) + R(1ms+d), where d is the largest delay of a timer or callback. Whatever producer and network do, when n segments have been delivered at most (n+2)T + d have passed: T for the discovery of the version, T for each delivered segment and T for the outcome; and as long as the program has not terminated, something can still happen. If ndnputchunks has published the object in L segments, then after (L+2)T + d the program has ended, with the whole object written to the standard output and status 0, or with status 1.", "quantifier": "for every pipeline size, retry limit, lifetime, delay, requested name, version discovery switched on or off, object, and every order and time of Data, Nacks, timeouts and backoffs", "why_tests_cant": "Real time, all combinations of losses in the discovery and on all slots; objects of any length.", "anchors": ["tools/chunks/catchunks/main.cpp: main", "tools/chunks/catchunks/consumer.cpp: Consumer::run", "tools/chunks/catchunks/discover-version.cpp: run, handleData", "tools/chunks/catchunks/pipeline-interests-fixed.cpp: doRun, fetchNextSegment, handleData, handleFail", "tools/chunks/catchunks/data-fetcher.cpp: handleNack, handleTimeout"]}
{"id": "C99", "title": "Names that the tools print can be given back to them", "statement": "The text that the tools print for a name, with or without ndn: before it, is read as this name when it is given on a command line, provided that components that stand for numbers are in the shortest form. The same holds for the text that the Wireshark dissector shows, in every form. The prefix given to ndnputchunks and the line that it prints with -p, with a slash between them, are the versioned name of the object; given to ndncatchunks they make it fetch this object without looking for a version. The message of ndnputchunks names the number of packets and the versioned name.", "quantifier": "for every name, every accepted command line of both programs, both naming conventions, every input and version number, and every buffer shown by the dissector", "why_tests_cant": "Escapes, dots, digests, typed and numeric components, schemes and authorities combine in unboundedly many ways; tests use plain names.", "anchors": ["tools/chunks/putchunks/producer.cpp: Producer::Producer (print-data-version)", "tools/chunks/putchunks/main.cpp: main", "tools/chunks/catchunks/main.cpp: main", "tools/dissect-wireshark/ndn.lua: getUriFromName, getUriFromNameComponent", "tools/dump/ndndump.cpp: printNdn"]}
{"id": "C100", "title": "A transfer with an adaptive pipeline ends in time", "statement": "Let T be the largest RTO plus the interval of the RTO check plus the largest delay of its timer. If an object of L segments is served, and no segment is lost more often than the retry limit permits, then nothing happens later than (L + number of losses + 1)T after the start, and by then every segment was delivered exactly once and the transfer was completed. Whatever producer and network do, a running pipeline has sent an Interest at most T ago.", "quantifier": "for every window algorithm, initial window, option, object, sequence of RTO values, and every order and time of Data, Nacks, expirations and checks", "why_tests_cant": "Real time and all combinations of losses; the execution that waits for ever needs an initial window of at least four, a loss of each segment and a Nack for a segment beyond the end.", "anchors": ["tools/chunks/catchunks/pipeline-interests-adaptive.cpp: doRun, checkRto, sendInterest, schedulePackets, handleData, handleNack, handleLifetimeExpiration, enqueueForRetransmission, handleFail", "tools/chunks/catchunks/pipeline-interests-aimd.cpp: decreaseWindow", "tools/chunks/catchunks/pipeline-interests-cubic.cpp: decreaseWindow"]}
{"id": "C101", "title": "The texts that the Wireshark dissector shows", "statement": "The text that the dissector appends to a packet tells what the packet is and, in order, the name and value of each element that has one, and of the elements inside of MetaInfo, SignatureInfo, KeyLocator, ForwardingHint, Nack and CachePolicy; the same for each of these elements. From the text of an Interest or Data packet one can tell which of both it is and its name. If no element has elements, the text tells all elements that have a value. An element of unknown type is shown with type number, length and the range to which its type belongs.", "quantifier": "for every buffer of which a packet is shown, every packet made of valid elements of any number and depth, and every element inside of it", "why_tests_cant": "Texts are built recursively from elements of unboundedly many shapes; that two different packets never have the same text needs all pairs of packets.", "anchors": ["tools/dissect-wireshark/ndn.lua: addInfo, addSummary, getGenericBlockInfo, canIgnoreTlvType, ndn.dissector"]}
{"id": "C102", "title": "ndncatchunks with an adaptive pipeline ends in time", "statement": "Let T = (1+2R)(lifetime+d) + R(1ms+d) for R retries, where d is the largest delay of a timer. Whatever producer and network do, the version is known, or ndncatchunks has ended with status 1, at most T after the start. If ndnputchunks has published the object in L segments and the network loses no segment more often than the retry limit permits, then nothing happens later than T + (L + number of losses + 1)(largest RTO + interval of the RTO check + d), and at every moment the program has ended with status 0 and the whole object on the standard output, or something can still happen.", "quantifier": "for every window algorithm, initial window, option, retry limit, lifetime, delay, requested name, object, sequence of RTO values, and every order and time of Data, Nacks, timeouts, expirations, backoffs and checks", "why_tests_cant": "Real time, all combinations of losses in the discovery and in the pipeline; objects of any length; that the pipeline starts when the discovery ends.", "anchors": ["tools/chunks/catchunks/main.cpp: main", "tools/chunks/catchunks/consumer.cpp: Consumer::run", "tools/chunks/catchunks/discover-version.cpp: run, handleData", "tools/chunks/catchunks/pipeline-interests-adaptive.cpp: doRun, checkRto, schedulePackets, handleData, handleFail", "tools/chunks/catchunks/data-fetcher.cpp: handleNack, handleTimeout"]}
{"id": "C103", "title": "What ndncatchunks --verbose prints with an adaptive pipeline", "statement": "With --verbose an adaptive pipeline does what it does without. The lines Requesting, Retransmitting, Received segment and Packet loss event tell, in order, exactly which Interests are sent for the first time and again, which segments are delivered, and that the window was decreased because of a loss. The numbers of retries count up to the number of retransmissions; there are as many lines about decreases as the summary counts, with the window after the decrease; the RTT is the time since the latest Interest for the segment and the RTO is the one at that time.", "quantifier": "for every window algorithm, initial window, option, retry limit, and every order and time of Data, Nacks, expirations, checks and cancellations", "why_tests_cant": "That lines and Interests agree must hold for every execution; the difference needs a segment that runs out of retries and, in a transfer that succeeds, lies beyond the end.", "anchors": ["tools/chunks/catchunks/pipeline-interests-adaptive.cpp: sendInterest, handleData, handleNack, recordTimeout"]}
{"id": "C104", "title": "ndn-dissect and the Wireshark dissector show the same elements", "statement": "For a packet that the Wireshark dissector shows, ndn-dissect, given the bytes of this packet, shows the same elements: same types, same values, same nesting and order, except for what Wireshark finds inside of elements that ndn-dissect shows as they are (signatures, and the Content without the option). This is so if the value of the packet has at most 8796 bytes and every element in question has a type number from 1 to 2^32-1, a length that is not given in 9 octets, and, if it is empty and the last in the buffer, the length in one octet. In each of the other cases there are packets for which the two differ; a packet of more than 8796 bytes is refused by ndn-dissect although Wireshark shows it.", "quantifier": "for every buffer, every offset of the packet in it, every nesting of elements in any accepted encoding, and both options of ndn-dissect", "why_tests_cant": "the two programs have separate parsers in two languages and no test compares them; the differences show up only for unusual encodings, such as a Nonce of four zero bytes, which Wireshark shows as two elements", "anchors": ["tools/dissect-wireshark/ndn.lua: getSubBlocks, readVarNumber, getBlock", "tools/dissect/dissector.cpp: printBlock"]}
{"id": "C105", "title": "What ndncatchunks --verbose prints with the fixed pipeline", "statement": "With --verbose the fixed pipeline does what it does without. The lines Requesting segment and Received segment tell, in order, which segments are requested for the first time and which are delivered; the segments requested are 0, 1, 2 and so on, each once, and an Interest is sent for exactly these. Every Nack and timeout of a segment that is being fetched is told, in order, and no other; with a limit of retries there are at most so many lines and one more for each segment and kind. The message of a failure is true of the Nacks and timeouts that the lines tell. No segment is asked for more often than once for the line Requesting and once for each line about a Nack or timeout, and exactly so often if it was received.", "quantifier": "for every pipeline size, retry limit, and every order of Data, Nacks, timeouts, timers and cancellations", "why_tests_cant": "That lines and Interests agree must hold in every interleaving of the fetches; tests do not look at the standard error.", "anchors": ["tools/chunks/catchunks/pipeline-interests-fixed.cpp: fetchNextSegment, handleData", "tools/chunks/catchunks/data-fetcher.cpp: handleNack, handleTimeout"]}
{"id": "C106", "title": "What ndnputchunks --verbose prints", "statement": "For each Interest that concerns the published object the lines name it and say what is sent: the segment asked for, the first segment, the metadata packet or a Nack; nothing is printed for other Interests. The order of the lines is that of the Interests. What was sent is, in order, what the lines say is sent, except for packets that still wait, and when the program ends by itself nothing that the lines say is missing. If an exception ends the program, the lines tell which Interest or packet was the reason.", "quantifier": "for every option, prefix, input, digest, signature, and every sequence of Interests of any size and any interleaving of arrivals and sending", "why_tests_cant": "That lines and packets agree must hold for every sequence of Interests; the difference needs an Interest of nearly the largest size, or one that arrives while packets wait; tests do not look at the standard error.", "anchors": ["tools/chunks/putchunks/producer.cpp: Producer, processDiscoveryInterest, processSegmentInterest, run"]}
{"id": "C107", "title": "What ndnpeek and ndnpoke write to the standard error", "statement": "With --verbose both programs do what they do without. ndnpeek names the Interest that it sends, each Data that it receives and the round-trip time of each answer in milliseconds; ndnpoke names each Interest that comes in, prints one DATA for each Data that it sends, and says for each other Interest that it cannot be satisfied. When a program ends, the last line that tells an outcome goes with the exit status, and TIMEOUT is printed only if the exit status is 3. Without --verbose nothing is printed except that, and why, the prefix could not be registered.", "quantifier": "for every option within range, every text of names, Interests and Data without line ends, and every order and time of answers, Interests, registration results and timers", "why_tests_cant": "The lines must be read back from the text for every name and number; the exception needs a packet that comes in between the time limit and the end of the program.", "anchors": ["tools/peek/ndnpeek/ndnpeek.cpp: createInterest, onData, onNack, onTimeout", "tools/peek/ndnpoke/ndnpoke.cpp: sendData, onInterest, onRegSuccess, onRegFailure"]}
{"id": "C108", "title": "What ndncatchunks --verbose prints while it looks for the version", "statement": "With --verbose the version discovery does what it does without. If no discovery is needed nothing is printed. Otherwise the lines are those about the Nacks and timeouts that occurred, in order, then at most one about a Data packet, then at most one about a version. The last line belongs to the result: a version is printed if and only if a name was found, and it is the last component of this name; read as a component of a URI it gives the number of the version. There is one discovery Interest more than lines about Nacks and timeouts, except that there are as many while the program waits after congestion and when it gave up. If only the producer of the object answers, the version printed is the one that ndnputchunks -p printed.", "quantifier": "for every name, option, retry limit, every order of Data, Nacks, timeouts and timers, and every content of the Data packets", "why_tests_cant": "That lines and signals agree must hold for every order of setbacks and every metadata packet, including versions in the old format and numbers not in the shortest form; tests do not look at the standard error.", "anchors": ["tools/chunks/catchunks/discover-version.cpp: run, handleData", "tools/chunks/catchunks/data-fetcher.cpp: handleNack, handleTimeout"]}
{"id": "C109", "title": "What ndn-dissect shows of a packet that ndnpoke sent and ndnpeek received", "statement": "If ndnpeek without -p exits with status 0, it wrote one packet, and ndn-dissect shows for it, in order and at the right depth: the name that was given to ndnpoke, component by component; the freshness period if it is not zero; the last component as FinalBlockId if that was asked for; the input of ndnpoke as the content, with -c the elements that it consists of; and the signature.", "quantifier": "for every option of the three programs, every input, name, key and signature, and every sequence of events on the network, as far as the packet is of a size that ndnpoke can send", "why_tests_cant": "The three programs are tested apart; values that look like elements are shown as elements, and whether a value does so depends on its bytes.", "anchors": ["tools/peek/ndnpoke/ndnpoke.cpp: createData", "tools/peek/ndnpeek/ndnpeek.cpp: onData", "tools/dissect/dissector.cpp: dissect, printBlock"]}
{"id": "C110", "title": "Exit status 0 of ndncatchunks means a complete output, whatever the Data contain", "statement": "If ndncatchunks exits with status 0, then some packet announced a last segment L, and the standard output is the content of the segments 0 to L, in order, each from valid Data with this segment number - also if the packets contradict each other about the last segment, or come with numbers beyond it.", "quantifier": "for every sequence of events on the network with Data of any content and any FinalBlockId, every pipeline and option", "why_tests_cant": "Tests use a producer that is consistent with itself; which packets contradict each other, and in which order they arrive, can only be covered for all sequences by proof.", "anchors": ["tools/chunks/catchunks/pipeline-interests.cpp: allSegmentsReceived", "tools/chunks/catchunks/pipeline-interests-adaptive.cpp: handleData, cancelInFlightSegmentsGreaterThan", "tools/chunks/catchunks/pipeline-interests-fixed.cpp: handleData", "tools/chunks/catchunks/consumer.cpp: writeInOrderData"]}
{"id": "C111", "title": "The parameters that ndncatchunks lists in verbose mode", "statement": "With -v ndncatchunks lists before the transfer the parameters by which it runs: for every pipeline whether fresh content is asked for, the lifetime of the Interests and the number of retries; the size of the fixed pipeline; the parameters of the RTT estimator and of the window algorithm of the adaptive ones. The list can be read back: times, counts and switches are exact, other numbers are right to six digits, and the pipeline behaves as listed. Without -v there is no list.", "quantifier": "for every command line with which ndncatchunks runs, also numbers that are negative, infinite or not a number", "why_tests_cant": "The list depends on the pipeline and some twenty options, each in many forms; tests do not look at the standard error.", "anchors": ["tools/chunks/catchunks/main.cpp: main", "tools/chunks/catchunks/pipeline-interests.cpp: printOptions", "tools/chunks/catchunks/pipeline-interests-adaptive.cpp: printOptions", "tools/chunks/catchunks/pipeline-interests-fixed.cpp: PipelineInterestsFixed", "tools/chunks/catchunks/pipeline-interests-cubic.cpp: PipelineInterestsCubic, decreaseWindow"]}
{"id": "C112", "title": "Names that ndndump shows can be given to ndnpeek", "statement": "From every line that ndndump prints for an Interest, a Data or a Nack the name can be copied: it is the last word of the line, up to the question mark with which the parameters of an Interest begin. ndnpeek, started with this text, asks for the name of the packet if the numbers in it are in the shortest form, and otherwise for a name that differs from it only in the width of these numbers.", "quantifier": "for every capture of frames that ndndump understands, every link type and encapsulation, with and without timestamps, all names", "why_tests_cant": "A name may contain spaces, newlines, question marks, slashes, dots or typed components; whether the text in the line survives being copied depends on all of them together, and on two programs.", "anchors": ["tools/dump/ndndump.cpp: printPacket, printNdn", "tools/peek/ndnpeek/main.cpp: main"]}
{"id": "C113", "title": "The Wireshark dissector gets what is documented, and what ndndump shows", "statement": "The payloads that Wireshark gives to the dissector are precisely those that its documentation lists: UDP with a port 6363 or 56363, TCP with a port 6363, WebSocket with a port 9696, the Ethernet type 0x8624 and the PPP protocol 0x0077. They are precisely those that the default filter of ndndump lets through.", "quantifier": "for all ports, Ethernet types and PPP protocols, and all frames of the link types that ndndump reads", "why_tests_cant": "The numbers are written in a Lua script, a filter expression and a text; that they select the same frames is a statement about all frames, for two programs that are never tested together.", "anchors": ["tools/dissect-wireshark/ndn.lua: registration in DissectorTable", "tools/dissect-wireshark/README.md", "tools/dump/ndndump.hpp: NdnDump::getDefaultPcapFilter"]}
{"id": "C114", "title": "The version that ndnputchunks is given", "statement": "If the prefix on the command line of ndnputchunks ends with a version component, the object is published under this version. If the version component is not valid, ndnputchunks exits with an error. If there is none, a version is generated and appended.", "quantifier": "for every command line, all names, both naming conventions, every input and time", "why_tests_cant": "The documentation promises an error for every invalid version; tests use a few valid ones. The ways to write a component of the type for versions that is not a number are unboundedly many.", "anchors": ["tools/chunks/putchunks/producer.cpp: Producer::Producer", "tools/chunks/putchunks/main.cpp: main", "tools/chunks/README.md"]}

# Formal model of ndn-tools: design

Source: `/repo` (named-data/ndn-tools, pinned commit, read as text, never built here).
Prover: Lean 4.33.0, Lake project in `lean/`, Mathlib imported one module at a time.

## Layout

* `lean/Verif/Model/*.lean`: the code, function by function. Every definition cites file and lines.
* `lean/Verif/Spec/*.lean`: small specifications, independent of the model's helper functions.
* `lean/Verif/Proofs/*.lean`: invariants and helper lemmas.
* `lean/Verif/Props/*.lean`: the property theorems (`C01_...`), each with a concrete
  non-trivial example beside it that meets its hypotheses.
* `lean/Verif/Conformance/*.lean`: the project's own unit tests (`/repo/tests`), run on the model. They are tests of the
  model and prove no property; they show that the reading of the code has the results that its authors expect. All expected values
  are met, except for three statements in `tests/dissect-wireshark/README.md` with which the code does not agree (several packets
  in one TCP segment, see C69; the text of a PIT token; a label). Not transcribed: `pipeline-interests-cubic.t.cpp` (the model
  uses real numbers), `PrintSummaryWithNoRttMeasurements`, signatures, packets that are too long, large captures.

## Modelling style

* A component is a state record, an initial state and a total function `step : State -> Event -> State`.
  Observable effects (Interests sent, callbacks invoked, bytes written) are appended to a `log`
  field in the state, so that invariants may speak about the whole history.
* An execution is a list of events. What the environment (ndn-cxx, the network) can deliver is a
  predicate `enabled`; theorems that hold for arbitrary events do not use it.
* An exception that leaves a handler, a failed assertion and undefined behaviour are distinct
  outcomes of the model (`threw`, `assertFailed`, `ub`), never assumed away.
* Interest lifetimes, RTTs and clocks are chosen by the environment: a timeout may occur at any
  time at which the Interest is pending. `Model/PingTime` (C80), `Model/PeekTime` (C93), `Model/FetchTime` (C96, C97), `Model/CatchunksTime` (C98), `Model/AdaptiveTime` (C87, C88, C100) and `Model/CatchunksAdaptiveTime` (C102) add a clock;
  there handlers take no time, and in `Model/AdaptiveTime` the results of the RTT estimator are inputs.

## Trusted base

* Lean's kernel, and the axioms `propext`, `Classical.choice`, `Quot.sound` (whichever subset a
  theorem uses; `#print axioms` shows nothing else). No axioms of our own.
* The reading of the C++ code that the models express, definition by definition (comments cite lines).
* The behaviour of ndn-cxx and Boost, whose sources are not in the sandbox. Assumed:
  * `Face::expressInterest` never calls back synchronously; each call leads to at most one
    of Data / Nack / timeout callback.
  * Cancelling a pending Interest is asynchronous: a callback may still arrive shortly afterwards
    (models allow late callbacks; where a theorem excludes them, it says so in its hypotheses).
  * `Scheduler` cancellation is synchronous.
  * A scheduled event and the timer of a pending Interest fire when due or later, never earlier; both take a duration in
    nanoseconds, to which milliseconds are converted by a signed 64 bit multiplication.
  * With `CanBePrefix=false`, the Data delivered for an Interest has exactly the Interest's name.
  * `MetadataObject::makeData` throws when its argument is not a valid metadata name; `isValidName` and
    `makeDiscoveryInterest` as in `Model/Name`; an Interest is passed to every matching `InterestFilter`.
  * A prefix registration has one result; Interests are dispatched to its filter after success; cancelling the
    registration is asynchronous (packets already received are still dispatched).
  * `Face::processEvents` returns when no pending Interest, scheduled event or posted handler is left.
  * The validators of `ndncatchunks` (accept-all or a chain of synchronous checks) call back at once;
    in `Model/Consumer` the verdict may come later.
  * `Data` matches an `Interest` as in `Model/Name.matchesData`.
  * `Model/Tlv`: `readVarNumber` accepts numbers in any width; `Block::fromStream` has a limit of 8800 bytes and encodes the
    header again, so that `size()` is that of the shortest encoding. Whether `Block::parse` keeps the elements that it read
    before a wrong type or length number is a parameter (`Opts.keep`) over which theorems quantify.
  * `Model/DumpRun`: libpcap's functions answer anything; `pcap_loop` calls the callback for the packets that the filter
    lets through, in order, and returns 0 at the end of a file or -1 with an error; a live capture is the packets so far.
    For C91 the default filter has the meaning of pcap-filter(7) as libpcap compiles it: type field at offset 12, 14 or 2,
    ports for TCP and UDP only in first fragments of IPv4 and without extension headers in IPv6.
  * `Model/DumpText`: `operator<<` for names as `Name::toUri` of ndn-cxx with the alternate format (named conventions for
    types 1, 2, 50, 52, 54, 56, 58), `inet_ntop` as in glibc. The text of an Interest after its name is arbitrary; C92
    assumes that it is empty or begins with a question mark and is printable, as `operator<<` of Interest writes it.
  * `Model/PeekTime`: `cancel` of a pending Interest or of a registration is posted and takes effect with the delay of a timer;
    the registration of a prefix has a result after a time that does not depend on the options of ndnpoke.
  * `Model/FetchTime`: the timer of a pending Interest is set by `expressInterest` for the lifetime of the Interest, the one of `schedule` for
    the given time; neither fires early, and with a bound `d` for the delay no event happens later than `d` after something is due; `Model/CatchunksTime`:
    a handler that was posted runs at most `d` later, and `processEvents` returns as soon as nothing is pending;
  * `Model/Uri`: how ndn-cxx reads a name from a text (`Name::Name(std::string_view)`, `Component::fromUri`, `unescape`,
    `fromHex`, the table of component types); ndnpeek reads it through `operator>>`, which is the same for texts without spaces.
  * `Model/Report`: `std::chrono` counts are converted to `double` before they are divided; Boost.Chrono prints a duration of one second in
    the singular; `std::fixed` with precision 3 rounds to the nearest, ties to even, of the exact value of the `double`;
  * `Model/Dump`: the layout of the headers of `<netinet/*.h>` and libpcap on a little-endian machine; the decoders of ndn-cxx
    for Interest, Data and LpPacket are arbitrary functions that may throw `tlv::Error`; so may `get` of a field. From memory,
    ndn-cxx throws for an empty Fragment field. `pcap_loop` passes the packets one after the other.
  * `Model/Throughput`: `std::to_string(double)` is `%f`, correctly rounded (ties to even).
  * `Model/PeekVerbose`: the texts of Interests, of names and of the reason of a failed registration have no line ends; the text of a Data is
    several lines, of which the further ones begin with `MetaInfo: `, `Content: ` or `Signature: `, and the last one is ended.
  * `Model/Format`: `operator<<(double)` with the flags of a fresh stream is `%.6g`, correctly rounded (ties to even).
  * `Model/PingOutput`: the URI of a name and the text of a time have no spaces or line breaks; names of the Nack reasons as
    ndn-cxx prints them; `std::sqrt` and the text of NaN are arbitrary.
  * `Model/Cli`: what the option parser of Boost accepts, by type; `Name(std::string)`, `SigningInfo(std::string)`, base64,
    regular expressions and files are arbitrary functions (`Lib`); the constructor of `RttEstimator` asserts that its weights
    are between 0 and 1.
  * `Model/ServerOutput`, `Model/Dissect`: `escape` and the printing of a generic component by ndn-cxx (percent-encoding; three dots before a
    value of dots only). The URIs of other components are arbitrary.
  * The NDN TLV number assignments and name component conventions of ndn-cxx.
  * `Model/Wire`: the encodings of Interest, Data and Nack, with which signatures are arbitrary functions; `Face::put` throws for
    packets of more than 8800 bytes, and the exception leaves `processEvents`. All other models assume that `put` succeeds.
    `Model/PutVerbose` has the exception when the posted packet is sent, after other handlers may have run.
  * Lua and the API of Wireshark (`Model/Wireshark`): a range outside of a `Tvb` raises an error; `uint64()` gives an object that
    compares with numbers by `<` and `<=`, never equals a number, computes modulo 2^64, can be concatenated with texts, and is
    refused where a number is required; `TreeItem:add` refuses a text that is not a number for an integer field; `pairs`
    visits arrays in order; a field of `nil` raises an error. The order in which items are created is not modelled
    (each is appended to its parent), so if creating an item fails, the items made before it for the same packet are not in
    the result. The texts of `addInfo` and `addSummary` are in `Model/WiresharkText`, with the order of the second queue replaced by recursion. How
    Wireshark shows items with a field, colours and hidden fields are not modelled. `Model/WiresharkPorts`: Wireshark gives a payload to the
    dissector that is registered for one of the two ports, the Ethernet type or the PPP protocol.
* Floating point numbers are modelled by exact rationals or reals (said at each definition), except where a
  rounding function is a parameter (`Model/Binary64`: 53 significant bits, ties to even, no overflow or subnormals).

## Properties: what is modelled and how it is proved

| id | model | proof |
|----|-------|-------|
| C01-C04 | `Model/DataFetcher` | invariants over all event sequences; C04 is refuted: the retry counter is reset on each re-expression, so only the cap and a constant delay can be proved |
| C05-C10 | `Model/Fixed` (composed of fetchers) | inductive invariants over all event sequences; C09 by a decreasing measure; C10 is refuted (the failure flag is never cleared), partial theorem for the rest |
| C11 | `Model/Fixed`, `Model/Adaptive` | invariants on the log |
| C12, C13, C17, C18 | `Model/Adaptive`, generic over a window algorithm | every event is a sequence of primitive changes (`Micro`), invariants are proved per primitive change |
| C14 | `Model/Adaptive` | refuted: a segment that waits for retransmission is counted down again when its Interest is Nacked or expires; partial: the counter is never too large; exact when such events are excluded |
| C15 | `Model/Adaptive` | refuted for limit 0; partial for the other limits; reaching the limit ends the transfer |
| C16 | `Model/Adaptive` | refuted: `handleFail` before the FinalBlockId is known may cancel everything in flight without reporting; partial: after a FinalBlockId was delivered, or without fatal events |
| C48, C49 | `Model/Adaptive` | invariants per primitive change |
| C50 | `Model/Adaptive` | no failure is reported (invariant); refuted: the transfer can stall because `handleFail` does not schedule |
| C51 | `Model/Adaptive` | the number of repeated Interests plus the queue is bounded by the number of loss indications along the run |
| C52 | `Model/Adaptive` | the recovery point was requested before the latest decrease; refuted for segment 0 |
| C19, C20 | `Model/Window` over rationals / reals | induction over sequences of increases and decreases; C20 refuted when no RTT was measured (infinite window) |
| C53 | `Model/Window` with `Model/Adaptive` | refuted: initial windows below 1 are accepted and nothing is ever sent; partial for windows of at least 1 |
| C21, C23 | `Model/Consumer`, exit status in `Model/Catchunks` | invariant: output is the concatenation of the received prefix; the exit status follows from the first bad call of the pipeline |
| C22 | `Model/Catchunks`: producer, adversarial network, discovery, pipeline, consumer, exit status | each pipeline delivers every segment at most once, only what arrived, and when idle without exception everything up to the end (`Proper`); composed with C21, C24, C25 |
| C24 | `Model/Discover` | invariants over fetcher events |
| C25, C28 | `Model/Name`, `Model/Producer` | round trip and segmentation theorems |
| C26 | `Model/Producer` | case analysis over all Interests; refuted for discovery Interests with components after the metadata keyword (`makeData` throws) |
| C27 | `Model/Producer` | refuted for non-canonical segment components and for the other naming convention; partial for canonical ones, and exactly these (iff) |
| C54 | `Model/Consumer` | refuted: a repetition of a written segment blocks the output; partial for earlier repetitions |
| C55 | `Model/Discover` | refuted: only the last component of the discovered name is checked; partial for metadata of the modelled producer |
| C29, C30 | `Model/Ping`: client, statistics collector, program | invariants over all event sequences; exit status |
| C31, C59 | `Model/Ping`, `Model/Binary64` | exact rationals for C31; C59 refuted with an explicit model of IEEE rounding (a sum of squares minus the square of the mean can be negative), partial for one sample, and for up to 10^9 samples by a relative error analysis over the rounded sums (`Proofs/PingError`): NaN only if the variance is tiny |
| C32, C56 | `Model/PingServer` | induction over the Interests; C56 refuted for freshness period 0, partial otherwise |
| C57 | `Model/Ping` | refuted: signed overflow after 2^31 pings; partial: not before |
| C58 | `Model/Ping` | refuted: pending pings are missing from the interim summary; partial: exact difference |
| C33 | `Model/Peek` | invariant over all orders of answer and time limit |
| C34 | `Model/Poke` | invariant; refuted: cancelling the prefix is asynchronous, Interests dispatched before it takes effect are answered too; partial without such Interests |
| C35 | `Model/Dump`, every read is checked and yields `ub` when outside the captured bytes | refuted: the code goes on with the original length where less was captured; partial for packets captured entirely; every packet that was cut leads to a read outside (the output would otherwise have to depend on bytes that were not read), and without such a read the output is that of the entire packet |
| C36, C37 | `Model/Dump`, frames described header by header in `Spec/Dump` | every frame of the description is decoded to its payload, every other input gives a line about a problem; the filter decides about names |
| C38 | `Model/Dump` | proved for UDP; refuted for TCP with padding of the link layer (the length of the IP header is not used); partial for TCP without padding |
| C39 | `Model/Dump` | fields joined by delimiters as invariant of the formatter; truncated captures by monotonicity (`Proofs/DumpMono`) |
| C62 | `Model/Dump` | induction over the packets; refuted if `lp::Packet::get<FragmentField>` throws, which is called outside of `try`; partial otherwise |
| C40 | `Model/Tlv` | reading is characterised by an independent description of encodings; round trip |
| C41, C42 | `Model/Dissect` | structural induction over the forest, positions in document order; C41 for every input if `Block::parse` forgets elements when it throws, refuted if it keeps them |
| C43 | `Model/Dissect` | refuted for numbers that are not in the shortest encoding (the size is computed from the re-encoded header); partial for shortest encodings; right exactly if all encodings are shortest, never too large (`C43_exactly_when`) |
| C60, C61 | `Model/Dissect`, `Model/Wireshark` | the printed text determines the lines (it can be read back from the left) and these determine the forest; the dictionary has no ambiguous names and agrees with the one of the Wireshark dissector |
| C44 | `Model/Cli`: the checks of every `main` | case analysis, for all values of the options; refuted for ndnping and ndnpingserver (the exception for a malformed name is not caught; `isalnum` with a negative `char`) and for ndncatchunks (conversion of the RTO limits to nanoseconds overflows; weights of the RTT estimator are not checked); the other tools, and everything else of these three, proved |
| C63 | `Model/Programs`: `main` of ndnpeek and ndnpoke, from the command line to the exit status | composition of C44 with C33 and C34 |
| C64, C65, C67, C71 | `Model/Wireshark`: the Lua dissector, function by function | what `getSubBlocks` finds is characterised by the packet format; invariant of everything that is shown (`Good`); escaping and joining are injective |
| C66 | `Model/Wireshark` | the second queue visits the tree in an order that is computed (`trace`), the columns are a fold over it; refuted (a type 800 inside of ApplicationParameters is shown as Nack; a PIT token that reads as a Name replaces the name), partial without such bytes |
| C68 | `Model/Wireshark`, errors of Lua are results | refuted (Content `0A 00` is read as a Nonce of the wrong length); partial: every error comes from an element of a described kind, or from a second packet |
| C69, C70 | `Model/Wireshark` | refuted: `block.tree` of a second packet is `nil`, so an error ends the loop when a second packet is found, complete or not; after a packet, bytes that are no packet may still cause a request for more data; partial for the first packet |
| C72 | the program of C22 with the fixed pipeline, and a network that does not lose too much (`Spec/Catchunks.fairMachine`) | invariant: losses of a fetch ≤ Interests sent for it, hence no limit is exceeded; the end of the object is known from the first Data on; producer lemmas give the reply that can come next; decreasing measure over discovery and pipeline, which each loss raises by at most one |
| C73 | the adaptive pipeline with an announcing producer and a network that loses each existing segment at most as often as the limit permits (`Spec/Adaptive.servedMachine`, `FewLosses`) | no failure: repeats and queued repeats of a segment ≤ its losses, hence no limit is exceeded by a segment that exists. Completion: invariants (in-flight segments are outstanding; nothing waits for retransmission before the end is known, if decreases do not change the initial window), measure = segments missing. **False** for larger initial AIMD windows: a Nack beyond the end then stalls the transfer forever, like in C50 |
| C74 | the program of C22 with an adaptive pipeline, its producer, and the network of C73, discovery included (`Spec/Catchunks.usableMachine`) | projection of the program's runs to runs of the served pipeline of C73 (the producer's store announces its end in every packet), and lifting of the completing continuation back, the producer giving each answer; **false** for larger initial AIMD windows, by lifting the stall of C73 |
| C75 | `Model/Wire`: the packets as bytes, and a `Face::put` that throws for packets of more than 8800 bytes, around `Model/PingServer` and `Model/Producer` | refuted: an Interest of 8800 bytes with a long name stops ndnpingserver, whose reply repeats the name, and ndnputchunks, whose Nack encloses the Interest; `ndnputchunks --size` accepts sizes above 8790, with which the first request for a full segment stops it. Partial: with names, payloads and segments that leave some room, every reply fits |
| C76 | `Model/Ping` (the program) and `Model/PingServer` with a network between them (`Spec/PingNet`); Data come from the server only; other clients may use the server | projection to runs of the two programs; invariants (responses are answered pings, names of received Interests are distinct and sent); over a working network: counting argument that the server has answered everything before it stops, completing continuation by induction. **False** with `ndnpingserver -x 0` and a client without `-a` (proved for every network), and if the server's limit is smaller than the client's count |
| C77 | `Model/Peek` and `Model/Poke` with a network between them (`Spec/PeekPoke`); Data come from ndnpoke only | projection to runs of the two programs; invariant of the runs over a working network; false for Interests with CanBePrefix and a name shorter than ndnpoke's: the face passes an Interest to the filter only if the filter's name is a prefix of the Interest's name (`C77_prefix_refuted`) |
| C78 | `Model/Summary`: the numbers that `printSummary` shows, from the counters of the pipelines | segments and size from C07/C13 and the counters; timeouts counted per event independently (`Spec/Summary`), by induction; refuted for the line "Timeouts": a Nack for congestion decreases the window but is no timeout, so that "Timeouts: 0 (caused 1 window decreases)" is printed; proved with the Nacks added |
| C79 | `Model/Transfer`: `main` of ndncatchunks as a whole (command line, discovery, pipeline, consumer, exit status; accept-all validator; arbitrary window algorithm), and the producer that a command line of ndnputchunks gives | the cases of the command line are exhaustive and exclusive; the exit status from the first bad call (invariant of C23); bytes and success from C22 and C72, whose hypotheses follow from the checks of both command lines |
| C80 | `Model/PingTime`: `Ping.Prog` with the time of every event, due times of the scheduled ping and of each pending Interest, and the conversion of milliseconds to nanoseconds with overflow as undefined behaviour; handlers take no time | invariants over all timed runs: due times against the times of sending, below (pace) and above (bound on the delay of timers); the next due timer can always fire, so the program cannot stay; refuted for durations of 2^63 ns or more |
| C81 | `Model/PingOutput`: the bytes that ndnping writes, on top of `Ping.Prog`; `Model/Format`: printing of a `double` | the output is a sequence of lines by invariant; `Spec/PingOutput` reads lines back (words, numbers), independently of the printer; `Proofs/Format` shows that reading a printed number gives it back to within half a unit of the sixth digit, and that printing is monotone |
| C82 | the same | refuted twice: 1 of 2000001 pings answered is printed as 100% lost; equal round-trip times have an average below their minimum in binary64. Partial: up to a million pings; up to 10^9 responses the average is right up to 7 millionths and in order up to 14 (induction over the rounded sum); in order in exact arithmetic |
| C83 | `Model/Dissect`, `Model/Wire`, `Model/Producer` | refuted: the number of segment 256 is the encoding of an empty element of type 1 and shown as such; proved for values that do not look like elements, by C41 on the tree of the packet; exactly the multiples of 256 up to 64512 are hidden among the numbers below 2^24, by an invariant of all printed lines (`Props/DissectSegments`) |
| C84 | `Model/Fixed`; `Spec/FixedMsg` retells a run as what happened to which segment | invariant `Msgs`: counters of each fetcher equal the counts in the story, a recorded failure belongs to a fetcher that still occupies its slot, the known end is the first announced one, and every posted message is true; the message about the missing FinalBlockId is refuted (same run as C10) |
| C85, C86 | `Model/ServerOutput` on top of `Model/Wire` (server that may fail) and `Model/PingOutput`; readers of the text in `Spec/ServerOutput` | the output is a list of lines of words, read back; percent-encoding is injective; projection of the composed execution to the client |
| C87 | `Model/AdaptiveTime`: `Model/Adaptive` with the time of every event, the due time of the RTO check and the history with times and RTOs; handlers take no time | refuted (double entry in the retransmission queue); every event is one part without Interests followed by one `schedulePackets` (`Pre`, `Sched`), from which invariants: entries tell the latest Interest, a waiting segment was told lost after it, the check is due within an interval after the RTO of everything in flight |
| C88 | the same, with the rows of the two files (statistics-collector.cpp) | invariants by the same decomposition; one change of the window per event; Karn's rule (C18) makes the Interest unique |
| C89 | `Model/DumpRun`: `main` and `NdnDump::run`; libpcap as arbitrary functions | refuted (`--read ""` listens on the first interface; only loopback interfaces); largest true part by cases of `run` |
| C90 | the same | induction over the packets for `pcap_loop`, cases of `run` for the rest; `--verbose` by a relation that ignores the messages |
| C91 | the same, and a model of the default filter as a program for the BSD packet filter: loads outside the packet reject it | refuted for PPP and the Ethernet type of ndnSIM; the loads are computed for all headers of `Spec/Dump` |
| C92 | `Model/DumpText`: the bytes that `operator<<` and `inet_ntop` write for the values in the line | refuted for numbers in names that are not in the shortest encoding; otherwise words of a line determine the packet: left inverses for addresses (`Spec/DumpText` reads them by RFC 4291), injectivity for names; `C92_names` says exactly which names are printed alike |
| C93 | `Model/PeekTime`: `Model/Peek` and `Model/Poke` with the time of every event, due times of the timers, and overflow of the conversion to nanoseconds as undefined behaviour; handlers take no time | phases of a run (idle, gave up, done; idle, failed, registered) as invariants with the times; refuted for ndnpoke (its timeout starts with the registration of the prefix) and for durations of 2^63 ns or more |
| C94 | `Model/Report`: the text of the files of `--log-cwnd` and `--log-rtt`, with `double` arithmetic and `operator<<` of a `double` (`Model/Format`), on the rows of `Model/AdaptiveTime` | the text is a table that an independent reader splits at line breaks and tabs; every printed number is within six millionths; rounding to 53 bits and to six digits is monotone, hence the printed times do not decrease; witness for equal printed times |
| C95 | `Model/Report`: the text of `printSummary` of both kinds of pipelines; the minimum, average and maximum of the RTT are parameters | the words of the lines are read back; errors of two to four roundings of `double` arithmetic and of the printed digits, with C45, C48 and C78 for the numbers |
| C96 | `Model/FetchTime`: `Model/DataFetcher` with the time of every event and the due times of the Interest and of the backoff timer; handlers take no time | invariant: the time of the last Interest or of the last backoff is at most what the counted Nacks and timeouts can cost; the same invariant from below for patience; explicit runs for tightness and for unlimited retries |
| C97 | `Model/FetchTime` (`FixedTime`): `Model/Fixed` with the same clock, the times of all Interests and of the timers of all slots | every event changes one slot and leaves the other running fetches as they are (`slot_event`); the accounts of C96 for each slot, started at a time that is at most T times the number of segments received so far; `no_stall` of C09 gives a running slot |
| C98 | `Model/CatchunksTime`: `Model/Catchunks` with the fixed pipeline and the clock of C96/C97; the event loop returns when nothing is left to wait for | the accounts of C96 for the fetch of the metadata, those of C97 for the pipeline, started at most T after the program; a failure callback that was posted is called at most d later; if the program has not terminated, the fetch that is due first (or the posted callback) gives an event that is possible |
| C99 | `Model/Uri`: `Name(std::string)` of ndn-cxx (scheme, authority, slashes, escapes, dots, typed and named components), the lines of the constructor of ndnputchunks; printing from `Model/DumpText` and `Model/Wireshark` | reading inverts printing, component by component and by induction over the name; appending a component to a text without slash at its end; the transfer by C79 |
| C100 | `Model/AdaptiveTime`; the RTO never exceeds `maxRto` and the RTO check is never later than `d` (both are inputs of the theorems) | refuted: AIMD with an initial window of 4 stops sending after both segments were lost and a Nack came for a segment beyond the end (the stall of C73), so there is no bound; otherwise each interval T has an Interest that is sent (something is in flight by C16, and what is in flight was sent at most T ago by C87), and the Interests for existing segments are counted by the segments and the losses; until the end is known segment 0 is in flight (`served_flight`), afterwards an existing segment is |
| C101 | `Model/WiresharkText`: what `addInfo` and `addSummary` append, the text of the packet; a separate description of packets as trees of elements (`Spec/WiresharkText`: `Elem`) with encoding, text of names and labels by the assigned names | by recursion over the element tree, with the items that C64 gives for an encoding; texts of values have no comma and labels no colon, so joined texts can be split again. Found: nested elements make the text ambiguous (`C101_ambiguous`), and "(ignored)" is shown for odd types from 801 to 999, whereas NDNLPv2 lets ignore those from 800 to 959 that are multiples of 4 (`C101_ignored_refuted`; the rule of NDNLPv2 is from memory) |
| C102 | `Model/CatchunksAdaptiveTime`: `Model/Catchunks` with an adaptive pipeline and the clocks of C96 and C100; the RTO check is first due one interval after the moment at which the discovery ends | refuted by lifting the stall of C100 to the program; otherwise the accounts of C96 bound the discovery for any network, the executions of the pipeline are executions of C100 that begin when the discovery ends (`pipe_run`), and the program and its standard output are those of C74; until the end a fetch of the discovery or the RTO check gives an event that is possible |
| C103 | `Model/Verbose`: `Model/Adaptive` with the lines that `--verbose` prints | refuted by a concrete execution; a projection to `Model/Adaptive` and an invariant that relates lines, history, retransmission counters and the counters of the summary; the lines of a single event from the handlers; the times from the invariant of C87 |
| C104 | `Model/Dissect` and `Model/Wireshark` on the same bytes | refuted by concrete buffers; the tree that Wireshark shows satisfies the specification of the tree of ndn-dissect (`Fits`), by induction on the length of the value; completeness of Wireshark's sub-element search for any accepted encoding; then C41. Proved where the encodings are usual ones (`_partial`) |
| C105 | `Model/FixedVerbose`: `Model/Fixed` with the lines that `--verbose` prints | a projection to `Model/Fixed`; an invariant that relates lines and history; an invariant that relates the numbers of Interests and of Nacks and timeouts for each segment (one Interest is outstanding or due while a fetch runs); then C84 |
| C106 | `Model/PutVerbose`: the handlers of `Producer` with the lines that `--verbose` prints; posted packets are sent by a later event | each handler is related to `Model/Producer`, so C26 gives the lines of each Interest; invariants for lines = sent ++ waiting and for the Interests that waiting packets answer; refuted with the Interest of C75 |
| C107 | `Model/PeekVerbose`: `Model/PeekTime` and `Model/Poke` with the text of the standard error; functions that read it back (`Spec/PeekVerbose`) | the text is a list of lines that is computed from the events, and reading it gives back what the events tell; C33 and C34 relate events and exit status; refuted by executions with a late packet |
| C108 | `Model/DiscoverVerbose`: `Model/Discover` with the lines that `--verbose` prints | a projection to `Model/Discover`; one invariant for lines, history and the number of Interests, from the effects of an event on a running fetch (C01-C03); texts of versions as in C99 |
| C109 | `Model/Peek`, `Model/Poke`, `Proofs/PeekPoke` (the network), `Model/Wire`, `Model/Dissect` | the output is the packet of ndnpoke (C77), its encoding is that of a tree that fits (C41), and the lines of a tree are what the specification `Tree.told` says; false for values that look like elements (`C109_refuted`) |
| C110 | the program of C22 with any Data, also contradictory ones | what was written is a prefix of segments (C21), the announcement is from the history of the pipeline, the count of C13 bounds the number of segments; the adaptive pipelines count segments beyond the end and so give up a missing one (`C110_refuted`), the fixed pipeline writes them (`C110_fixed_refuted`), and an announcement by a packet beyond the end can leave the adaptive ones waiting for ever (`C110_hangs`) |
| C111 | `Model/Parameters`: the list of parameters as text; a reader (`Spec/Parameters`); `Model/Cli` | the text is a list of lines, each a key and a value that can be read back; CUBIC lists parameters of AIMD that it does not follow (`C111_refuted`) |
| C112 | `Model/DumpText`, `Model/Uri`, `Model/Cli` | the last word of a line up to the question mark is the text of the name (`C92`), which is read back (`C99_all`) |
| C113 | `Model/WiresharkPorts`: the registrations of ndn.lua; `Model/DumpRun`: the default filter | case by case over the tables, and the theorems of C91 about the filter; refuted for WebSocket and PPP |
| C114 | `Model/Producer`, `Model/Cli`, `Model/Uri` | case by case over the last component; refuted for components of type 54 that are not numbers |
| C45 | `Model/Throughput` | refuted as stated: `%f` rounds to six digits, so 1000 − 2^-30 bit/s is displayed as 1000.000000 bit/s, and small throughputs as 0; proved with the error, from the number of bytes and the time, through IEEE double arithmetic (`binary64`), to the text |
| C46, C47 | `Model/Adaptive`, `Model/Fixed` | refuted for the adaptive pipeline (undefined behaviour / exception), proved for the fixed one |

Not modelled: console formatting other than where a property speaks about it (all of the standard output of ndnping and ndnpingserver is modelled), key chain and
signature computation, the Boost option parser's tokenising, logging in verbose mode other than that of the version discovery and the pipelines (C103, C105, C108, C111), of ndnputchunks (C106), of ndnpeek and ndnpoke (C107) and of ndndump (C90), libpcap other than the meaning of the default filter of ndndump.

{
 "claims": [
  {
   "property": "C01",
   "status": "proved",
   "theorems": [
    "Verif.DataFetcher.C01_fetch_ends_once",
    "Verif.DataFetcher.C01_fetch_reports"
   ],
   "note": ""
  },
  {
   "property": "C02",
   "status": "proved",
   "theorems": [
    "Verif.DataFetcher.C02_fetch_retry_budget"
   ],
   "note": ""
  },
  {
   "property": "C03",
   "status": "proved",
   "theorems": [
    "Verif.DataFetcher.C03_fetch_one_outstanding"
   ],
   "note": ""
  },
  {
   "property": "C04",
   "status": "partial",
   "theorems": [
    "Verif.DataFetcher.C04_backoff_does_not_grow",
    "Verif.DataFetcher.C04_backoff_constant_partial"
   ],
   "note": "The claim is false of the code (the retry counter is reset by every re-expression); negation proved, and the constant backoff that holds instead."
  },
  {
   "property": "C05",
   "status": "proved",
   "theorems": [
    "Verif.Fixed.C05_fixed_once_in_order"
   ],
   "note": ""
  },
  {
   "property": "C06",
   "status": "proved",
   "theorems": [
    "Verif.Fixed.C06_fixed_window"
   ],
   "note": ""
  },
  {
   "property": "C07",
   "status": "proved",
   "theorems": [
    "Verif.Fixed.C07_fixed_completion"
   ],
   "note": ""
  },
  {
   "property": "C08",
   "status": "proved",
   "theorems": [
    "Verif.Fixed.C08_fixed_no_stall"
   ],
   "note": ""
  },
  {
   "property": "C09",
   "status": "proved",
   "theorems": [
    "Verif.Fixed.C09_fixed_terminates"
   ],
   "note": ""
  },
  {
   "property": "C10",
   "status": "partial",
   "theorems": [
    "Verif.Fixed.C10_beyond_end_not_harmless",
    "Verif.Fixed.C10_late_loss_harmless_partial"
   ],
   "note": "The claim is false of the code; negation proved by a concrete execution, and the case of failures after the FinalBlockId is known proved."
  },
  {
   "property": "C100",
   "status": "partial",
   "theorems": [
    "Verif.AdaptiveTime.C100_completes_partial",
    "Verif.AdaptiveTime.C100_cubic",
    "Verif.AdaptiveTime.C100_aimd_partial",
    "Verif.AdaptiveTime.C100_limit_partial",
    "Verif.AdaptiveTime.C100_stalls",
    "Verif.AdaptiveTime.C100_pace_partial",
    "Verif.AdaptiveTime.C100_pace_false"
   ],
   "note": "False of the code: C100_stalls and C100_pace_false give an AIMD execution with initial window 4 that waits for ever. What holds: CUBIC with every initial window (C100_cubic), AIMD with the default initial window or with the window reset to its initial value (C100_aimd_partial), and any algorithm whose decreases keep the initial number of segments in flight. The pace holds once the end is known, or without retry limit and fatal Nacks (C100_pace_partial). Handlers take no time."
  },
  {
   "property": "C101",
   "status": "proved",
   "theorems": [
    "Verif.Wireshark.C101_summary",
    "Verif.Wireshark.C101_packet",
    "Verif.Wireshark.C101_name",
    "Verif.Wireshark.C101_unambiguous",
    "Verif.Wireshark.C101_ambiguous",
    "Verif.Wireshark.C101_item",
    "Verif.Wireshark.C101_generic",
    "Verif.Wireshark.C101_ignored_refuted"
   ],
   "note": "About packets that the dissector shows; C67 and C68 tell when it fails. With elements inside of elements the text is ambiguous (C101_ambiguous). The word (ignored) in the text for unknown types is wrong for every field of NDNLPv2 (C101_ignored_refuted). How Wireshark shows fields itself is not modelled."
  },
  {
   "property": "C102",
   "status": "partial",
   "theorems": [
    "Verif.CatchunksAdaptiveTime.C102_discovery",
    "Verif.CatchunksAdaptiveTime.C102_ends_partial",
    "Verif.CatchunksAdaptiveTime.C102_limit_partial",
    "Verif.CatchunksAdaptiveTime.C102_cubic",
    "Verif.CatchunksAdaptiveTime.C102_aimd_partial",
    "Verif.CatchunksAdaptiveTime.C102_stalls"
   ],
   "note": "False of the code for some initial windows: C102_stalls gives, for every time, an AIMD execution with initial window 4 in which the program has by then written nothing and not ended. What holds: the discovery (any network), CUBIC, the default, with every initial window (C102_cubic), AIMD with the default initial window or with the window reset to its initial value (C102_aimd_partial), and any algorithm whose decreases keep the initial number of segments in flight. Handlers take no time; finite retry limit."
  },
  {
   "property": "C103",
   "status": "partial",
   "theorems": [
    "Verif.Verbose.C103_same",
    "Verif.Verbose.C103_claim_false",
    "Verif.Verbose.C103_truth_partial",
    "Verif.Verbose.C103_excess_partial",
    "Verif.Verbose.C103_retries",
    "Verif.Verbose.C103_decreases",
    "Verif.Verbose.C103_explained",
    "Verif.Verbose.C103_nack",
    "Verif.Verbose.C103_rtt"
   ],
   "note": "False of the code with a limit of retries: Retransmitting segment is printed before the limit is looked at, once in excess for each segment that runs out of retries (C103_claim_false, C103_excess_partial). Everything else holds in general, and everything without a limit. The lines are kept as their kind and numbers; the Interest in the line about a Nack and the value of a congestion mark are left out."
  },
  {
   "property": "C104",
   "status": "partial",
   "theorems": [
    "Verif.Agree.C104_same_partial",
    "Verif.Agree.C104_bytes",
    "Verif.Agree.C104_large",
    "Verif.Agree.C104_type_zero",
    "Verif.Agree.C104_long_length",
    "Verif.Agree.C104_last_element",
    "Verif.Agree.C104_refuted"
   ],
   "note": "The two parsers differ in four unusual cases (C104_large, C104_type_zero, C104_long_length, C104_last_element); C104_same_partial covers all other packets. If Block::parse of ndn-cxx keeps the elements before a wrong header, values that begin with elements and go on with a wrong header are excluded, too. The decoder of ndn-cxx and the API of Wireshark are as described in DESIGN.md."
  },
  {
   "property": "C105",
   "status": "proved",
   "theorems": [
    "Verif.FixedVerbose.C105_same",
    "Verif.FixedVerbose.C105_steps",
    "Verif.FixedVerbose.C105_requests",
    "Verif.FixedVerbose.C105_received",
    "Verif.FixedVerbose.C105_setbacks",
    "Verif.FixedVerbose.C105_limit",
    "Verif.FixedVerbose.C105_messages",
    "Verif.FixedVerbose.C105_interests"
   ],
   "note": "The lines are kept as their kind, segment and reason; the options printed by the constructor and the Interest in the lines about Nacks and timeouts other than its segment are left out. The message about a missing end is explained only as far as in C84."
  },
  {
   "property": "C106",
   "status": "partial",
   "theorems": [
    "Verif.PutVerbose.C106_lines",
    "Verif.PutVerbose.C106_about",
    "Verif.PutVerbose.C106_packets",
    "Verif.PutVerbose.C106_exit",
    "Verif.PutVerbose.C106_refuted",
    "Verif.PutVerbose.C106_partial"
   ],
   "note": "False of the code: a packet too long to be sent is named in the lines before it is refused (C106_refuted, for every producer with a name of reasonable length). What holds: the lines for each Interest (C106_lines, C106_about), lines = sent ++ waiting in every state (C106_packets), what ends the program (C106_exit), and that everything named is sent as long as packets fit and discovery names are as consumers use them (C106_partial). The texts of Interests and packets are those of ndn-cxx and left out."
  },
  {
   "property": "C107",
   "status": "partial",
   "theorems": [
    "Verif.PeekVerbose.C107_peek_same",
    "Verif.PeekVerbose.C107_peek_status",
    "Verif.PeekVerbose.C107_peek_interest",
    "Verif.PeekVerbose.C107_peek_answers",
    "Verif.PeekVerbose.C107_peek_refuted",
    "Verif.PeekVerbose.C107_peek_partial",
    "Verif.PokeVerbose.C107_poke_same",
    "Verif.PokeVerbose.C107_poke_status",
    "Verif.PokeVerbose.C107_poke_lines",
    "Verif.PokeVerbose.C107_poke_refuted"
   ],
   "note": "False in one point: TIMEOUT may be followed by an answer (ndnpeek) or by an Interest (ndnpoke) that comes in while the program is ending, and the exit status is then 0 or 4 (C107_peek_refuted, C107_poke_refuted). Everything else holds; the last outcome always goes with the exit status. For ndnpeek durations are less than 2^63 ns (see C93). The texts of names, Interests and Data are those of ndn-cxx."
  },
  {
   "property": "C108",
   "status": "proved",
   "theorems": [
    "Verif.DiscoverVerbose.C108_same",
    "Verif.DiscoverVerbose.C108_not_needed",
    "Verif.DiscoverVerbose.C108_order",
    "Verif.DiscoverVerbose.C108_last",
    "Verif.DiscoverVerbose.C108_version",
    "Verif.DiscoverVerbose.C108_interests",
    "Verif.DiscoverVerbose.C108_producer"
   ],
   "note": "Of the line about a Data packet only the name is kept, of those about Nacks and timeouts all but the Interest. How components are printed and read is ndn-cxx as described in DESIGN.md."
  },
  {
   "property": "C109",
   "status": "partial",
   "theorems": [
    "Verif.Dissect.C109_shown_partial",
    "Verif.Dissect.C109_refuted"
   ],
   "note": "False of the code for values that look like elements: the component %08%00 is shown as a component inside of a component (C109_refuted). Proved for names, key names and freshness periods whose bytes do not begin with elements (NotElements); the content may be anything, with -c either bytes that are no elements or elements to any depth."
  },
  {
   "property": "C11",
   "status": "proved",
   "theorems": [
    "Verif.Fixed.C11_fixed_one_failure",
    "Verif.Adaptive.C11_adaptive_one_failure"
   ],
   "note": ""
  },
  {
   "property": "C110",
   "status": "partial",
   "theorems": [
    "Verif.Catchunks.C110_fixed_partial",
    "Verif.Catchunks.C110_adaptive_partial",
    "Verif.Catchunks.C110_refuted",
    "Verif.Catchunks.C110_fixed_refuted",
    "Verif.Catchunks.C110_hangs"
   ],
   "note": "False of the code if a segment beyond the last one is delivered before the last one is announced: the adaptive pipelines count it, so that the output lacks a segment with exit status 0 (C110_refuted); the fixed pipeline writes it (C110_fixed_refuted). A packet with a number beyond the end that it announces is ignored by the adaptive pipelines, which then do not notice that they have everything, and do not end (C110_hangs). Proved for all other transfers; with the fixed pipeline the segments 0 to L are always written."
  },
  {
   "property": "C111",
   "status": "partial",
   "theorems": [
    "Verif.Parameters.C111_listing_partial",
    "Verif.Parameters.C111_distinguishes",
    "Verif.Parameters.C111_refuted"
   ],
   "note": "The list can be read back. False of the code: the CUBIC pipeline does not behave as listed, it lists the parameters of AIMD, which it does not follow (C111_refuted)."
  },
  {
   "property": "C112",
   "status": "proved",
   "theorems": [
    "Verif.DumpText.C112_copied"
   ],
   "note": "The text of an Interest after its name is assumed to be in printable characters and to begin with a question mark (as ndn-cxx prints it); names are valid NDN names. Printing and reading of names by ndn-cxx is in the trusted base."
  },
  {
   "property": "C113",
   "status": "partial",
   "theorems": [
    "Verif.Wireshark.C113_documented",
    "Verif.Wireshark.C113_only_partial",
    "Verif.Wireshark.C113_websocket_refuted",
    "Verif.Wireshark.C113_ndndump_partial",
    "Verif.Wireshark.C113_ppp_refuted"
   ],
   "note": "False of the code in two points: every WebSocket connection is given to the dissector, not only those with port 9696 (C113_websocket_refuted); PPP frames with NDN are given to the dissector and not let through by the default filter of ndndump (C113_ppp_refuted). Everything else holds. It is assumed that no other dissector claims the other port of a connection."
  },
  {
   "property": "C114",
   "status": "partial",
   "theorems": [
    "Verif.PutVersion.C114_given",
    "Verif.PutVersion.C114_generated",
    "Verif.PutVersion.C114_refused_partial",
    "Verif.PutVersion.C114_refuted"
   ],
   "note": "False of the code: a component of the type for versions that is not a number, such as 54=abc, is accepted, and a generated version is appended behind it (C114_refuted, for every accepted command line). What holds: valid versions are used (C114_given), otherwise one is generated (C114_generated), and the short form v= with anything but a number is refused with status 1 or 2 (C114_refused_partial), because ndn-cxx does not read it as a name."
  },
  {
   "property": "C12",
   "status": "proved",
   "theorems": [
    "Verif.Adaptive.C12_adaptive_once_in_order",
    "Verif.Adaptive.C12_adaptive_nothing_beyond"
   ],
   "note": ""
  },
  {
   "property": "C13",
   "status": "proved",
   "theorems": [
    "Verif.Adaptive.C13_adaptive_completion"
   ],
   "note": ""
  },
  {
   "property": "C14",
   "status": "partial",
   "theorems": [
    "Verif.Adaptive.C14_counter_not_exact",
    "Verif.Adaptive.C14_window_not_respected",
    "Verif.Adaptive.C14_assertion_fails",
    "Verif.Adaptive.C14_counter_partial",
    "Verif.Adaptive.C14_exact_when_clean_partial"
   ],
   "note": "False of the code: a segment that waits for retransmission is counted down twice when a Nack or expiry follows. Negations proved; upper bound proved for all executions, exactness for executions without such events."
  },
  {
   "property": "C15",
   "status": "partial",
   "theorems": [
    "Verif.Adaptive.C15_limit_zero_not_respected",
    "Verif.Adaptive.C15_limit_partial",
    "Verif.Adaptive.C15_limit_fails"
   ],
   "note": "False of the code for limit 0 (one retransmission is sent nevertheless); proved for all other limits."
  },
  {
   "property": "C16",
   "status": "partial",
   "theorems": [
    "Verif.Adaptive.C16_stalls",
    "Verif.Adaptive.C16_claim_false",
    "Verif.Adaptive.C16_no_stall_partial"
   ],
   "note": "False of the code: a fatal Nack before the FinalBlockId is known can silence the pipeline for ever (proved, for all continuations). Proved when a FinalBlockId was delivered or nothing fatal happened."
  },
  {
   "property": "C17",
   "status": "proved",
   "theorems": [
    "Verif.Adaptive.C17_one_decrease_per_rtt",
    "Verif.Adaptive.C17_cause"
   ],
   "note": ""
  },
  {
   "property": "C18",
   "status": "proved",
   "theorems": [
    "Verif.Adaptive.C18_karn",
    "Verif.Adaptive.C18_sampled"
   ],
   "note": ""
  },
  {
   "property": "C19",
   "status": "proved",
   "theorems": [
    "Verif.Window.C19_aimd_laws",
    "Verif.Window.C19_aimd_growth"
   ],
   "note": "Over exact rationals."
  },
  {
   "property": "C20",
   "status": "partial",
   "theorems": [
    "Verif.Window.C20_cubic_laws_partial",
    "Verif.Window.C20_cubic_target",
    "Verif.Window.C20_cubic_plateau",
    "Verif.Window.C20_reno_estimate",
    "Verif.Window.C20_no_slow_start_again",
    "Verif.Window.C20_infinite_window"
   ],
   "note": "Proved over the reals when an RTT was measured. False without a measurement: the window becomes infinite (proved for every such configuration)."
  },
  {
   "property": "C21",
   "status": "proved",
   "theorems": [
    "Verif.Consumer.C21_in_order",
    "Verif.Consumer.C21_object",
    "Verif.Consumer.C21_prefix_always"
   ],
   "note": ""
  },
  {
   "property": "C22",
   "status": "proved",
   "theorems": [
    "Verif.Catchunks.C22_fixed",
    "Verif.Catchunks.C22_adaptive"
   ],
   "note": "Producer, adversarial network with caches, discovery, pipeline, consumer and exit status composed. The requested name must not extend the producer's metadata name."
  },
  {
   "property": "C23",
   "status": "proved",
   "theorems": [
    "Verif.Consumer.C23_bad_never_written",
    "Verif.Consumer.C23_good_not_thrown",
    "Verif.Catchunks.C23_exit_fixed",
    "Verif.Catchunks.C23_exit_adaptive"
   ],
   "note": "The exit status is determined by the first bad call of the pipeline."
  },
  {
   "property": "C24",
   "status": "proved",
   "theorems": [
    "Verif.Discover.C24_not_needed",
    "Verif.Discover.C24_one_result",
    "Verif.Discover.C24_result_comes"
   ],
   "note": ""
  },
  {
   "property": "C25",
   "status": "proved",
   "theorems": [
    "Verif.Producer.C25_segmentation"
   ],
   "note": ""
  },
  {
   "property": "C26",
   "status": "partial",
   "theorems": [
    "Verif.Producer.C26_segment_reply",
    "Verif.Producer.C26_unspecified_reply",
    "Verif.Producer.C26_discovery_reply",
    "Verif.Producer.C26_discovery_throws",
    "Verif.Producer.C26_one_reply_partial"
   ],
   "note": "False of the code for discovery Interests with further components after the metadata keyword: the program terminates by an exception (proved). Proved for all other Interests."
  },
  {
   "property": "C27",
   "status": "partial",
   "theorems": [
    "Verif.Producer.C27_reply_not_satisfying",
    "Verif.Producer.C27_other_convention",
    "Verif.Producer.C27_satisfies_partial",
    "Verif.Producer.C27_exactly_when"
   ],
   "note": "False of the code: a segment component that is not in the shortest form, or of the other naming convention, is answered by Data that does not match (proved). Proved for canonical components; the reply matches exactly in these cases (C27_exactly_when)."
  },
  {
   "property": "C28",
   "status": "proved",
   "theorems": [
    "Verif.Producer.C28_component_roundtrip",
    "Verif.Producer.C28_names_differ"
   ],
   "note": ""
  },
  {
   "property": "C29",
   "status": "proved",
   "theorems": [
    "Verif.Ping.C29_sequence_numbers",
    "Verif.Ping.C29_number_readable",
    "Verif.Ping.C29_one_result",
    "Verif.Ping.C29_count",
    "Verif.Ping.C29_unlimited",
    "Verif.Ping.C29_stop"
   ],
   "note": "Without a count the statement is about executions before the counter overflow of C57 (the finish notification never comes in any case)."
  },
  {
   "property": "C30",
   "status": "proved",
   "theorems": [
    "Verif.Ping.C30_accounting",
    "Verif.Ping.C30_exit"
   ],
   "note": ""
  },
  {
   "property": "C31",
   "status": "proved",
   "theorems": [
    "Verif.Ping.C31_statistics"
   ],
   "note": "In exact arithmetic, as the property says; see C59 for double arithmetic."
  },
  {
   "property": "C32",
   "status": "proved",
   "theorems": [
    "Verif.PingServer.C32_one_reply",
    "Verif.PingServer.C32_finish",
    "Verif.PingServer.C32_no_limit"
   ],
   "note": "The finish notification is counted for fewer than 2^64 Interests (the counter has 64 bits)."
  },
  {
   "property": "C33",
   "status": "proved",
   "theorems": [
    "Verif.Peek.C33_outcome",
    "Verif.Peek.C33_exit",
    "Verif.Peek.C33_interest"
   ],
   "note": "Encoding of the Data and Nack header to bytes is ndn-cxx's and not modelled here."
  },
  {
   "property": "C34",
   "status": "partial",
   "theorems": [
    "Verif.Poke.C34_data",
    "Verif.Poke.C34_unsolicited",
    "Verif.Poke.C34_empty_name",
    "Verif.Poke.C34_outcome_partial",
    "Verif.Poke.C34_prompt_partial",
    "Verif.Poke.C34_refuted"
   ],
   "note": "False of the code: Interests that are dispatched before the asynchronous cancellation takes effect are answered too, so Data may be sent twice or after the time limit (proved). Proved when no Interest arrives after the cancellation; exit status 0 iff Data sent, 5 iff registration failed, 3 iff time limit and nothing sent always."
  },
  {
   "property": "C35",
   "status": "partial",
   "theorems": [
    "Verif.Dump.C35_inside_partial",
    "Verif.Dump.C35_refuted",
    "Verif.Dump.C35_truncated",
    "Verif.Dump.C35_cut_refuted"
   ],
   "note": "False of the code when the captured length is smaller than the original length: proved for every Interest, Data and LpPacket that was cut, in every encapsulation (C35_cut_refuted). Proved for packets captured entirely; otherwise either bytes outside are read or the output is that of the entire packet, and no byte beyond the original length is read (C35_truncated). Unaligned access is not counted."
  },
  {
   "property": "C36",
   "status": "proved",
   "theorems": [
    "Verif.Dump.C36_printed_iff",
    "Verif.Dump.C36_only_accepted"
   ],
   "note": "The filter and the decoders of ndn-cxx are arbitrary functions."
  },
  {
   "property": "C37",
   "status": "proved",
   "theorems": [
    "Verif.Dump.C37_decoded",
    "Verif.Dump.C37_unambiguous"
   ],
   "note": "For packets captured entirely; frames are described in Spec/Dump."
  },
  {
   "property": "C38",
   "status": "partial",
   "theorems": [
    "Verif.Dump.C38_udp",
    "Verif.Dump.C38_tcp_partial",
    "Verif.Dump.C38_tcp_counts_padding",
    "Verif.Dump.C38_refuted"
   ],
   "note": "False of the code for TCP with padding (proved, with the size of the error); proved for UDP and for TCP without padding."
  },
  {
   "property": "C39",
   "status": "proved",
   "theorems": [
    "Verif.Dump.C39_line",
    "Verif.Dump.C39_delimiters",
    "Verif.Dump.C39_timestamp",
    "Verif.Dump.C39_skipped"
   ],
   "note": "For every packet whose processing is defined and does not throw."
  },
  {
   "property": "C40",
   "status": "proved",
   "theorems": [
    "Verif.Dissect.C40_read_iff",
    "Verif.Dissect.C40_roundtrip"
   ],
   "note": "Reading from a stream is limited to 8800 bytes by ndn-cxx, from a buffer it is not."
  },
  {
   "property": "C41",
   "status": "partial",
   "theorems": [
    "Verif.Dissect.C41_lines_partial",
    "Verif.Dissect.C41_every_input",
    "Verif.Dissect.C41_kept_refuted"
   ],
   "note": "Depends on what Block::parse of ndn-cxx leaves behind when it throws: if nothing, proved for every input; if the elements read so far, false for values that start with an element and go on with a wrong header (proved), and proved for all other forests."
  },
  {
   "property": "C42",
   "status": "proved",
   "theorems": [
    "Verif.Dissect.C42_branches"
   ],
   "note": "For the same forests as C41_lines_partial."
  },
  {
   "property": "C43",
   "status": "partial",
   "theorems": [
    "Verif.Dissect.C43_refuted",
    "Verif.Dissect.C43_offset_partial",
    "Verif.Dissect.C43_exactly_when"
   ],
   "note": "False of the code for numbers not in the shortest encoding (proved); proved for shortest encodings. In general the offset is never too large, and right exactly if no element has a shorter encoding."
  },
  {
   "property": "C44",
   "status": "partial",
   "theorems": [
    "Verif.Cli.C44_parser",
    "Verif.Cli.C44_catchunks_partial",
    "Verif.Cli.C44_catchunks_runs",
    "Verif.Cli.C44_catchunks_refuted",
    "Verif.Cli.C44_putchunks",
    "Verif.Cli.C44_ping_partial",
    "Verif.Cli.C44_ping_runs",
    "Verif.Cli.C44_ping_timeout",
    "Verif.Cli.C44_ping_refuted",
    "Verif.Cli.C44_pingserver_partial",
    "Verif.Cli.C44_pingserver_runs",
    "Verif.Cli.C44_pingserver_refuted",
    "Verif.Cli.C44_peek",
    "Verif.Cli.C44_poke",
    "Verif.Cli.C44_dump",
    "Verif.Cli.C44_dissect"
   ],
   "note": "Proved for ndnputchunks, ndnpeek, ndnpoke, ndndump and ndn-dissect. False of ndnping and ndnpingserver (a malformed name is an uncaught exception; other characters than ASCII in the identifier) and of ndncatchunks (RTO values that overflow, weights of the RTT estimator unchecked): proved, and the rest is proved for them too. Whenever one of them runs, its options are in range."
  },
  {
   "property": "C45",
   "status": "partial",
   "theorems": [
    "Verif.Throughput.C45_format_partial",
    "Verif.Throughput.C45_below_partial",
    "Verif.Throughput.C45_goodput_partial",
    "Verif.Throughput.C45_refuted",
    "Verif.Throughput.C45_no_time"
   ],
   "note": "False of the code as stated: six digits after the point are displayed, so the number is rounded and can be 1000 (proved). Proved with the error of the rounding and of IEEE double arithmetic, from the bytes and the time to the text."
  },
  {
   "property": "C46",
   "status": "partial",
   "theorems": [
    "Verif.Fixed.C46_fixed_cancel_in_callback",
    "Verif.Adaptive.C46_adaptive_undefined",
    "Verif.Adaptive.C46_adaptive_partial"
   ],
   "note": "Proved for the fixed pipeline; false for the adaptive one (negation proved), which is safe if the callback never cancels."
  },
  {
   "property": "C47",
   "status": "partial",
   "theorems": [
    "Verif.Adaptive.C47_late_callback_throws",
    "Verif.Adaptive.C47_tracked_partial"
   ],
   "note": "False of the code: a late timeout callback makes unordered_map::at throw (proved). Proved for environments without such callbacks."
  },
  {
   "property": "C48",
   "status": "proved",
   "theorems": [
    "Verif.Adaptive.C48_counters"
   ],
   "note": ""
  },
  {
   "property": "C49",
   "status": "proved",
   "theorems": [
    "Verif.Adaptive.C49_failure_message_true"
   ],
   "note": ""
  },
  {
   "property": "C50",
   "status": "partial",
   "theorems": [
    "Verif.Adaptive.C50_beyond_end_no_failure_partial",
    "Verif.Adaptive.C50_beyond_end_stalls"
   ],
   "note": "No failure is ever reported (proved). The transfer can stall, however: a Nack for a segment beyond the end may leave a segment waiting for retransmission with an empty window and nothing scheduled (proved, for all continuations)."
  },
  {
   "property": "C51",
   "status": "proved",
   "theorems": [
    "Verif.Adaptive.C51_retransmissions_caused"
   ],
   "note": ""
  },
  {
   "property": "C52",
   "status": "partial",
   "theorems": [
    "Verif.Adaptive.C52_loss_decreases_partial",
    "Verif.Adaptive.C52_segment0_ignored"
   ],
   "note": "False for segment 0, because the recovery point starts at 0 (proved); proved for all other segments."
  },
  {
   "property": "C53",
   "status": "partial",
   "theorems": [
    "Verif.Window.C53_small_window_hangs",
    "Verif.Window.C53_progress_partial"
   ],
   "note": "False of the code: an initial window below 1 is accepted and the program hangs (proved). Proved for initial windows of at least 1."
  },
  {
   "property": "C54",
   "status": "partial",
   "theorems": [
    "Verif.Consumer.C54_duplicate_blocks",
    "Verif.Consumer.C54_early_repeat_harmless_partial"
   ],
   "note": "False of the code: a repetition of a segment that was written already stays at the front of the buffer and blocks all further output (proved, for all continuations). Proved for repetitions before the segment is written."
  },
  {
   "property": "C55",
   "status": "partial",
   "theorems": [
    "Verif.Discover.C55_any_name",
    "Verif.Discover.C55_not_below",
    "Verif.Discover.C55_honest_producer_partial"
   ],
   "note": "False of the code: the name in the metadata is only checked for a version component (proved). Proved for metadata of the modelled producer."
  },
  {
   "property": "C56",
   "status": "partial",
   "theorems": [
    "Verif.PingServer.C56_refuted",
    "Verif.PingServer.C56_reply_satisfies_partial"
   ],
   "note": "False of the code for freshness period 0, which the server accepts: its Data never satisfies an Interest with MustBeFresh (proved). Proved for positive freshness or clients that allow stale Data."
  },
  {
   "property": "C57",
   "status": "partial",
   "theorems": [
    "Verif.Ping.C57_refuted",
    "Verif.Ping.C57_partial"
   ],
   "note": "False of the code: the int counter overflows at the 2^31st ping (existence of the execution proved); nothing overflows before, nor with a count."
  },
  {
   "property": "C58",
   "status": "partial",
   "theorems": [
    "Verif.Ping.C58_refuted",
    "Verif.Ping.C58_partial"
   ],
   "note": "False of the code: pending pings are not counted (negation proved); the number is short by exactly the pending ones, and right at the end (C30_exit)."
  },
  {
   "property": "C59",
   "status": "partial",
   "theorems": [
    "Verif.Ping.C59_refuted",
    "Verif.Ping.C59_single_partial",
    "Verif.Ping.C59_deviation_partial",
    "Verif.Ping.C31_statistics"
   ],
   "note": "False of the code: three responses of 0.1 ms give NaN in IEEE double arithmetic (proved with an explicit rounding function). Proved for one response, and in exact arithmetic always. For n responses (up to 10^9) it is a number unless the variance is less than 60n/2^53 of the mean of the squares, and its square is the variance up to 72n/2^53 of that mean."
  },
  {
   "property": "C60",
   "status": "proved",
   "theorems": [
    "Verif.Dissect.C60_faithful",
    "Verif.Dissect.C60_escape"
   ],
   "note": ""
  },
  {
   "property": "C61",
   "status": "proved",
   "theorems": [
    "Verif.Dissect.C61_type_names",
    "Verif.Dissect.C61_agreement",
    "Verif.Dissect.C61_assigned",
    "Verif.Dissect.C61_link"
   ],
   "note": ""
  },
  {
   "property": "C62",
   "status": "partial",
   "theorems": [
    "Verif.Dump.C62_to_the_end_partial",
    "Verif.Dump.C62_refuted"
   ],
   "note": "False if ndn-cxx throws when the Fragment field of an LpPacket is taken out, because that call is outside of any try block (proved); otherwise proved for packets captured entirely."
  },
  {
   "property": "C63",
   "status": "proved",
   "theorems": [
    "Verif.Programs.C63_peek",
    "Verif.Programs.C63_poke"
   ],
   "note": "Composition of the command line checks with the models of the two tools; an exception may leave the tool at any time."
  },
  {
   "property": "C64",
   "status": "proved",
   "theorems": [
    "Verif.Wireshark.C64_structure",
    "Verif.Wireshark.C64_complete"
   ],
   "note": "Types and lengths below 2^32 for the second part."
  },
  {
   "property": "C65",
   "status": "proved",
   "theorems": [
    "Verif.Wireshark.C65_names_injective",
    "Verif.Wireshark.C65_characters",
    "Verif.Wireshark.C65_generic",
    "Verif.Wireshark.C65_plain"
   ],
   "note": "For names whose value is a sequence of elements; a malformed Name is shown like the empty one."
  },
  {
   "property": "C66",
   "status": "partial",
   "theorems": [
    "Verif.Wireshark.C66_columns_partial",
    "Verif.Wireshark.C66_refuted",
    "Verif.Wireshark.C66_refuted_name"
   ],
   "note": "False of the code: payload bytes that look like a Nack or a Name change the column (proved). Proved for packets without such bytes."
  },
  {
   "property": "C67",
   "status": "proved",
   "theorems": [
    "Verif.Wireshark.C67_in_bounds",
    "Verif.Wireshark.C67_bound"
   ],
   "note": "Also: the bounds of the model's own recursions are never reached."
  },
  {
   "property": "C68",
   "status": "partial",
   "theorems": [
    "Verif.Wireshark.C68_errors_partial",
    "Verif.Wireshark.C68_refuted"
   ],
   "note": "False of the code: a valid Data with the content 0A 00 raises an error (proved). Proved: errors come only from elements of five kinds, found where values are read as elements, or from a second packet in the buffer."
  },
  {
   "property": "C69",
   "status": "partial",
   "theorems": [
    "Verif.Wireshark.C69_first_partial",
    "Verif.Wireshark.C69_ignored",
    "Verif.Wireshark.C69_at_most_one",
    "Verif.Wireshark.C69_refuted"
   ],
   "note": "False of the code: never more than one packet is shown (proved). The first one is shown, and the conditions for ignoring a buffer are proved."
  },
  {
   "property": "C70",
   "status": "partial",
   "theorems": [
    "Verif.Wireshark.C70_incomplete_partial",
    "Verif.Wireshark.C70_requested_partial",
    "Verif.Wireshark.C70_refuted",
    "Verif.Wireshark.C70_refuted_junk"
   ],
   "note": "False of the code after a complete packet, in both directions (proved). Proved if the first packet is incomplete."
  },
  {
   "property": "C71",
   "status": "proved",
   "theorems": [
    "Verif.Wireshark.C71_numbers",
    "Verif.Wireshark.C71_names"
   ],
   "note": "Numbers of another length are shown as 2^64 - 1 (proved)."
  },
  {
   "property": "C72",
   "status": "proved",
   "theorems": [
    "Verif.Catchunks.C72_transfer_succeeds",
    "Verif.Catchunks.C72_can_complete",
    "Verif.Catchunks.C72_fixed_pipeline"
   ],
   "note": "Fixed pipeline. For every retry limit, also unlimited: never fails, bound on the events in terms of the number of losses, and a completing continuation; a bound without the losses for finite limits."
  },
  {
   "property": "C73",
   "status": "partial",
   "theorems": [
    "Verif.Adaptive.C73_no_failure",
    "Verif.Adaptive.C73_can_complete_partial",
    "Verif.Adaptive.C73_aimd_windows",
    "Verif.Adaptive.C73_cubic_windows",
    "Verif.Adaptive.C73_stalls"
   ],
   "note": "Never fails: proved for every window algorithm. Can complete: false of the code if a decrease makes the initial window smaller, e.g. AIMD with initial window 4 (proved: stalls forever); proved if it does not, which holds of CUBIC with every initial window and of AIMD with the default one."
  },
  {
   "property": "C74",
   "status": "partial",
   "theorems": [
    "Verif.Catchunks.C74_no_failure",
    "Verif.Catchunks.C74_can_complete_partial",
    "Verif.Catchunks.C74_cubic",
    "Verif.Catchunks.C74_aimd",
    "Verif.Catchunks.C74_stalls"
   ],
   "note": "Never fails, and no exit status but 0: proved for every window algorithm. Can complete: false of the code with AIMD and initial window 4 (proved: never writes nor exits); proved for CUBIC with every initial window and AIMD with the default one."
  },
  {
   "property": "C75",
   "status": "partial",
   "theorems": [
    "Verif.Wire.C75_ping_refuted",
    "Verif.Wire.C75_ping_refuted_claim",
    "Verif.Wire.C75_ping_partial",
    "Verif.Wire.C75_put_refuted",
    "Verif.Wire.C75_put_size_refuted",
    "Verif.Wire.C75_put_partial"
   ],
   "note": "False of the code: long names stop both servers, and segment sizes above 8790 stop ndnputchunks (proved for all options). Proved if name, payload and segment size leave some room in a packet."
  },
  {
   "property": "C76",
   "status": "partial",
   "theorems": [
    "Verif.PingNet.C76_received_answered",
    "Verif.PingNet.C76_exit_zero",
    "Verif.PingNet.C76_working_partial",
    "Verif.PingNet.C76_stale_refuted",
    "Verif.PingNet.C76_limit_refuted"
   ],
   "note": "Proved over every network: received implies answered, and the meaning of exit status 0. Success over a working network: false with freshness period 0 and no -a, or a server limit below the client's count (proved); proved for all other options."
  },
  {
   "property": "C77",
   "status": "partial",
   "theorems": [
    "Verif.PeekPoke.C77_output",
    "Verif.PeekPoke.C77_success_partial",
    "Verif.PeekPoke.C77_prefix_refuted",
    "Verif.PeekPoke.C77_claim_false"
   ],
   "note": "Output and statuses: proved over every network. Completion over a working network: false for an Interest with CanBePrefix whose name is shorter than that of the Data, because it does not come through the Interest filter (proved for all such options); proved for all others and for ndnpoke -u."
  },
  {
   "property": "C78",
   "status": "partial",
   "theorems": [
    "Verif.Fixed.C78_fixed",
    "Verif.Adaptive.C78_timeouts",
    "Verif.Adaptive.C78_size",
    "Verif.Adaptive.C78_relations_partial",
    "Verif.Adaptive.C78_timeouts_partial",
    "Verif.Adaptive.C78_timeouts_refuted"
   ],
   "note": "Proved: segments and size for all pipelines, the exact number of timeouts, marks, percentage. False: the decreases attributed to timeouts may exceed the timeouts, because Nacks for congestion decrease the window as well (concrete transfer: 'Timeouts: 0 (caused 1 window decreases)'); proved with the Nacks added, and as claimed if there are none."
  },
  {
   "property": "C79",
   "status": "proved",
   "theorems": [
    "Verif.Transfer.C79_status",
    "Verif.Transfer.C79_bytes",
    "Verif.Transfer.C79_discovery",
    "Verif.Transfer.C79_succeeds"
   ],
   "note": "The window algorithm is arbitrary. The metadata name itself must not be the requested name (C27). No statement where the command line leads to undefined behaviour or a failed assertion (C44)."
  },
  {
   "property": "C80",
   "status": "partial",
   "theorems": [
    "Verif.PingTime.C80_refuted",
    "Verif.PingTime.C80_pace_partial",
    "Verif.PingTime.C80_times_partial",
    "Verif.PingTime.C80_ends_partial",
    "Verif.PingTime.C80_sigint_partial",
    "Verif.PingTime.C80_command_line"
   ],
   "note": "False for durations of 9223372036855 ms or more, which the command line accepts: the conversion to nanoseconds overflows (undefined behaviour). Proved for all smaller ones. Fewer than 2^31 pings (C57)."
  },
  {
   "property": "C81",
   "status": "proved",
   "theorems": [
    "Verif.PingOutput.C81_lines",
    "Verif.PingOutput.C81_totals",
    "Verif.PingOutput.C81_status",
    "Verif.PingOutput.C81_percent"
   ],
   "note": "In binary64 arithmetic. The URI of the prefix and the text of a time contain no space or line break (Env.Plain), which holds for what ndn-cxx prints. Status: starting sequence number below 2^64 and a count other than 0, as the command line gives."
  },
  {
   "property": "C82",
   "status": "partial",
   "theorems": [
    "Verif.PingOutput.C82_hundred_partial",
    "Verif.PingOutput.C82_hundred_refuted",
    "Verif.PingOutput.C82_times_partial",
    "Verif.PingOutput.C82_mean_partial",
    "Verif.PingOutput.C82_order_partial",
    "Verif.PingOutput.C82_average_partial",
    "Verif.PingOutput.C82_average_refuted"
   ],
   "note": "False: after one response and 2000000 timeouts the totals say '100% lost'; six responses of 1.000105 ms give min/avg/max = 1.00011/1.0001/1.00011, the average below the minimum. Proved: up to a million pings 100% means all timeouts; minimum and maximum are right and in order; with up to 10^9 responses the printed average is the mean up to 7 millionths and lies between the printed minimum and maximum up to 14 millionths, and exactly if sums are exact."
  },
  {
   "property": "C83",
   "status": "partial",
   "theorems": [
    "Verif.Dissect.C83_data_partial",
    "Verif.Dissect.C83_segments_partial",
    "Verif.Dissect.C83_numbers_partial",
    "Verif.Dissect.C83_hidden",
    "Verif.Dissect.C83_segments_refuted"
   ],
   "note": "False for segment 256, whose number 01 00 looks like an element: an ImplicitSha256DigestComponent is shown inside the SegmentNameComponent instead of the number. Proved if no value of a component looks like an element. For transfers of up to 2^24 segments it is settled which numbers do: the multiples of 256 from 256 to 64512 are never shown (C83_hidden), packets without them are shown exactly (C83_numbers_partial)."
  },
  {
   "property": "C84",
   "status": "partial",
   "theorems": [
    "Verif.Fixed.C84_messages_partial",
    "Verif.Fixed.C84_noFinal_refuted"
   ],
   "note": "False for the message about the missing FinalBlockId: it is reported after a FinalBlockId was delivered when a request beyond the end had failed before. Proved: all other messages; and this one is reported only if a request failed for an undelivered segment beyond the announced end, if one was announced. The retry limit is at least -1, as the command line demands."
  },
  {
   "property": "C85",
   "status": "proved",
   "theorems": [
    "Verif.ServerOutput.C85_lines",
    "Verif.ServerOutput.C85_component",
    "Verif.ServerOutput.C85_totals"
   ],
   "note": "The URI of the prefix, the text of a time and the URIs of components that are not generic contain no space or line break (Env.Plain), which holds for what ndn-cxx prints. The counter has 64 bits."
  },
  {
   "property": "C86",
   "status": "proved",
   "theorems": [
    "Verif.ServerOutput.C86_outputs"
   ],
   "note": "In binary64 arithmetic; texts of names and times as in C81 and C85. The server is not quiet, and fewer than 2^64 Interests arrived. Server replies fit into packets."
  },
  {
   "property": "C87",
   "status": "partial",
   "theorems": [
    "Verif.AdaptiveTime.C87_retx_partial",
    "Verif.AdaptiveTime.C87_claim_false",
    "Verif.AdaptiveTime.C87_noticed",
    "Verif.AdaptiveTime.C87_noticed_received"
   ],
   "note": "False of the code: a segment that waits already is queued a second time when a Nack for its old Interest arrives, and is sent again without a sign of loss (C87_claim_false). Proved for environments that tell a loss once; the second half (losses are noticed in time) holds generally, in terms of what was received if cancelled Interests do not call back."
  },
  {
   "property": "C88",
   "status": "proved",
   "theorems": [
    "Verif.AdaptiveTime.C88_cwnd",
    "Verif.AdaptiveTime.C88_rtt",
    "Verif.AdaptiveTime.C88_every"
   ],
   "note": "Rows as numbers; formatting of the numbers is not part of it. C88_every assumes that the data callback did not cancel the pipeline (undefined behaviour, C46)."
  },
  {
   "property": "C89",
   "status": "partial",
   "theorems": [
    "Verif.DumpRun.C89_source_partial",
    "Verif.DumpRun.C89_read_refuted",
    "Verif.DumpRun.C89_loopback_refuted"
   ],
   "note": "False of the code: with --read and an empty file name, ndndump listens on the first interface, in promiscuous mode; and if there are only loopback interfaces, it listens on one. Proved for names that are not empty, if libpcap lists interfaces that are not loopback interfaces first and there is one."
  },
  {
   "property": "C90",
   "status": "proved",
   "theorems": [
    "Verif.DumpRun.C90_status",
    "Verif.DumpRun.C90_output",
    "Verif.DumpRun.C90_messages",
    "Verif.DumpRun.C90_verbose"
   ],
   "note": "libpcap is a record of arbitrary functions. The statuses assume that every packet was captured entirely (C35: otherwise undefined behaviour is possible). That the output does not depend on --verbose contradicts the help text (print more detailed information about each packet)."
  },
  {
   "property": "C91",
   "status": "partial",
   "theorems": [
    "Verif.DumpRun.C91_ethernet",
    "Verif.DumpRun.C91_ports",
    "Verif.DumpRun.C91_shown_partial",
    "Verif.DumpRun.C91_ppp_refuted",
    "Verif.DumpRun.C91_ndnsim_refuted"
   ],
   "note": "False of the code: the default filter lets no PPP frame of ndnSIM through (with Address and Control) and no frame with the Ethernet type 0x7777, which ndndump would decode. Proved for the Ethernet type of NDN and the ports of NDN, with a model of the meaning that libpcap gives to this filter; first fragments of IPv4, IPv6 without extension headers."
  },
  {
   "property": "C92",
   "status": "partial",
   "theorems": [
    "Verif.DumpText.C92_addresses",
    "Verif.DumpText.C92_lines",
    "Verif.DumpText.C92_capture_partial",
    "Verif.DumpText.C92_packet_partial",
    "Verif.DumpText.C92_names",
    "Verif.DumpText.C92_alike_partial",
    "Verif.DumpText.C92_refuted"
   ],
   "note": "False of the code for all names: ndn-cxx prints typed numbers without their encoding, so that segment 5 in one octet and in two octets are printed alike although the names differ. Proved for names whose numbers have the shortest encoding, with Interest parameters in printable characters that begin with a question mark. For all names: exactly the names that differ at most in the width of numbers are printed alike (C92_names), and two captures with the same text agree but for that (C92_alike_partial)."
  },
  {
   "property": "C93",
   "status": "partial",
   "theorems": [
    "Verif.PeekTime.C93_peek_ends_partial",
    "Verif.PeekTime.C93_peek_patient_partial",
    "Verif.PeekTime.C93_peek_rtt_partial",
    "Verif.PeekTime.C93_peek_refuted",
    "Verif.PeekTime.C93_peek_command_line",
    "Verif.PokeTime.C93_poke_ends_partial",
    "Verif.PokeTime.C93_poke_patient_partial",
    "Verif.PokeTime.C93_poke_refuted",
    "Verif.PokeTime.C93_poke_waits",
    "Verif.PokeTime.C93_poke_command_line"
   ],
   "note": "False of the code: ndnpoke starts its timeout when the prefix has been registered, so that it can run longer by the time that the registration takes; durations of 2^63 ns or more, which both command lines accept, are undefined behaviour. Proved for smaller durations, for ndnpoke counted from the registration."
  },
  {
   "property": "C94",
   "status": "proved",
   "theorems": [
    "Verif.Report.C94_cwnd",
    "Verif.Report.C94_cwnd_aimd",
    "Verif.Report.C94_rtt",
    "Verif.Report.C94_resolution"
   ],
   "note": "On the model of the adaptive pipelines with a clock; double arithmetic and the printing of six digits are modelled. The sizes of CUBIC windows are real numbers in the model, the file is modelled for windows given as rational numbers."
  },
  {
   "property": "C95",
   "status": "proved",
   "theorems": [
    "Verif.Report.C95_fixed",
    "Verif.Report.C95_adaptive"
   ],
   "note": "The RTT statistics of the estimator of ndn-cxx are parameters. A transfer that takes no time shows inf or nan as goodput."
  },
  {
   "property": "C96",
   "status": "proved",
   "theorems": [
    "Verif.FetchTime.C96_ends",
    "Verif.FetchTime.C96_reached",
    "Verif.FetchTime.C96_patient",
    "Verif.FetchTime.C96_unlimited"
   ],
   "note": "Handlers take no time; the lifetime in nanoseconds is below 2^63."
  },
  {
   "property": "C97",
   "status": "proved",
   "theorems": [
    "Verif.FixedTime.C97_segment",
    "Verif.FixedTime.C97_sent",
    "Verif.FixedTime.C97_pace",
    "Verif.FixedTime.C97_ends",
    "Verif.FixedTime.C97_unlimited"
   ],
   "note": "Handlers take no time; the lifetime in nanoseconds is below 2^63. C97_pace holds for any producer, C97_ends for one that serves an object consistently."
  },
  {
   "property": "C98",
   "status": "proved",
   "theorems": [
    "Verif.CatchunksTime.C98_pace",
    "Verif.CatchunksTime.C98_ends"
   ],
   "note": "Handlers take no time; the lifetime in nanoseconds is below 2^63; finite retry limit."
  },
  {
   "property": "C99",
   "status": "proved",
   "theorems": [
    "Verif.Uri.C99_printed",
    "Verif.Uri.C99_typed",
    "Verif.Uri.C99_accepted",
    "Verif.Uri.C99_all",
    "Verif.Uri.C99_wireshark",
    "Verif.Uri.C99_version",
    "Verif.Uri.C99_published",
    "Verif.Uri.C99_transfer"
   ],
   "note": "The reader of names is the constructor of ndn-cxx, described in Model/Uri (trusted base). A prefix with a slash at the end is excluded: the root prefix and the printed version, with a slash between them, are read as an authority (example). Numbers that are not in the shortest form are printed like the shortest form (C99_all: read back as a name that differs at most in that)."
  }
 ]
}
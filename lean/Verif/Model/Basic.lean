/-!
# Shared vocabulary of the catchunks models

Values of ndn-cxx types that several components exchange.
-/

namespace Verif

/-- A byte string. -/
abbrev Bytes := List UInt8

/-- The reason of a Nack, `ndn::lp::NackReason`. `none` also stands for every
reason code unknown to ndn-cxx (`NackHeader::getReason` maps those to `NONE`). -/
inductive NackReason
  | none
  | congestion
  | duplicate
  | noRoute
  deriving DecidableEq, Repr

/-- The `FinalBlockId` field of a Data packet, as `data.getFinalBlock()` and
`getFinalBlock()->toSegment()` show it: not present, a segment number, or a
component that is not a segment number (`toSegment` then throws). -/
inductive FinalBlock
  | absent
  | seg (n : Nat)
  | notSegment
  deriving DecidableEq, Repr

/-- A Data packet as the pipelines and the consumer see it.

* `content`: the value of the Content element,
* `final`: the FinalBlockId,
* `congMark`: whether `data.getCongestionMark() > 0`,
* `appNack`: whether `data.getContentType() == tlv::ContentType_Nack`,
* `valid`: the verdict of the validator that the consumer uses.

Simplification: the name is kept outside of the packet (segments are identified by
their number), and the remaining fields play no role in the modelled code. -/
structure Pkt where
  content : Bytes
  final : FinalBlock := .absent
  congMark : Bool := false
  appNack : Bool := false
  valid : Bool := true
  deriving DecidableEq, Repr

/-- The message texts with which a fetch can fail; only the distinguishing part of the
text is kept.
* `nack r`: "Could not retrieve data for ..., reason: r" (data-fetcher.cpp:137),
* `maxNackRetries n`: "Reached the maximum number of nack retries (n) ..." (data-fetcher.cpp:146),
* `maxTimeoutRetries n`: "Reached the maximum number of timeout retries (n) ..." (data-fetcher.cpp:171),
* `segment n`: "Failure retrieving segment #n" (pipeline-interests-fixed.cpp:149),
* `noFinal`: "Fetching terminated but no final segment number has been found"
  (pipeline-interests-fixed.cpp:73,189, pipeline-interests-adaptive.cpp:379),
* `maxRetries n s`: "Reached the maximum number of retries (n) while retrieving segment #s"
  (pipeline-interests-adaptive.cpp:133),
* `segNack s r`: "Could not retrieve data for ..., reason: r" (pipeline-interests-adaptive.cpp:316). -/
inductive FailMsg
  | nack (r : NackReason)
  | maxNackRetries (n : Int)
  | maxTimeoutRetries (n : Int)
  | segment (n : Nat)
  | noFinal
  | maxRetries (n : Int) (seg : Nat)
  | segNack (seg : Nat) (r : NackReason)
  deriving DecidableEq, Repr

/-- Exceptions that can leave a handler.
* `finalBlockNotSegment`: thrown by `Component::toSegment()`,
* `outOfRange seg`: `std::out_of_range` thrown by `m_segmentInfo.at(seg)`. -/
inductive Exn
  | finalBlockNotSegment
  | outOfRange (seg : Nat)
  deriving DecidableEq, Repr

end Verif

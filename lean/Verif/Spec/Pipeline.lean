import Verif.Spec.Incoming
import Verif.Spec.RespMessage
/-!
# Several messages on one connection (RFC 7230, section 6.3.2; RFC 7231, section 6.2)
-/
namespace J8a

/-- The stream begins with these requests; `rest` is what follows them. -/
inductive ReadsRequests : (stream : Str) → List HttpRequest → (rest : Str) → Prop
  | none {rest : Str} : ReadsRequests rest [] rest
  | more {stream next rest : Str} {m : HttpRequest} {ms : List HttpRequest} : ReadsIncoming stream m next →
      ReadsRequests next ms rest → ReadsRequests stream (m :: ms) rest

/-- The stream begins with the answer to a request with this method: interim responses (not 101) and a final one. -/
inductive ReadsAnswer (method : Str) : (stream : Str) → HttpResponse → (rest : Str) → Prop
  | final {stream rest : Str} {m : HttpResponse} : ReadsResponse method stream m rest → 200 ≤ m.status →
      ReadsAnswer method stream m rest
  | interim {stream next rest : Str} {i m : HttpResponse} : ReadsResponse method stream i next → 100 ≤ i.status →
      i.status < 200 → i.status ≠ 101 → ReadsAnswer method next m rest → ReadsAnswer method stream m rest

/-- The stream begins with the answers to requests with these methods, in this order. -/
inductive ReadsAnswers : (methods : List Str) → (stream : Str) → List HttpResponse → (rest : Str) → Prop
  | none {rest : Str} : ReadsAnswers [] rest [] rest
  | more {method stream next rest : Str} {methods : List Str} {m : HttpResponse} {ms : List HttpResponse} :
      ReadsAnswer method stream m next → ReadsAnswers methods next ms rest →
      ReadsAnswers (method :: methods) stream (m :: ms) rest

end J8a

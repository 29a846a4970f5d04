import Verif.Registry.Lookup

/-!
# The errors that the packages declare, C308

Every error variable of the repository and the media type it is given when its package is initialised. The type of the variables (`er.Error`, `er.Err`) is not in the
repository: it is taken to keep the text given to `Init` as its media type, and to take its identifier from that text alone by a hash, a parameter, as mediatype/media-type.go:30-36
does. `Init` of the variables of type `er.Error` is taken to register them as `Init` of the others does.
-/

namespace Memar.Registry.Declared
open Memar Memar.Registry

open Lean in
/-- The characters of a literal, written out, so that the kernel need not decode them. -/
macro "chars! " s:str : term => do
  let cs : Array (TSyntax `term) := (s.getString.toList.map fun c => (⟨(Syntax.mkCharLit c).raw⟩ : TSyntax `term)).toArray
  `([$cs,*])

/-! ## Model -/

/-- An error variable: its package, its name and the media type it is given. -/
structure Declared where
  pkg : String
  name : String
  text : List Char
deriving DecidableEq

/-- The bytes of the media type (the literals are ASCII). -/
def Declared.mediaType (e : Declared) : Bytes := e.text.map fun c => BitVec.ofNat 8 c.toNat

/-- json/errors.go:56-61 -/
def json : List Declared :=
  [⟨"json", "ErrEncodedIncludeNotDefinedKey", chars! "domain/json.ecma-international.org; type=error; name=encoded-include-not-defined-key"⟩,
   ⟨"json", "ErrEncodedCorrupted", chars! "domain/json.ecma-international.org; type=error; name=encoded-corrupted"⟩,
   ⟨"json", "ErrEncodedIntegerCorrupted", chars! "domain/json.ecma-international.org; type=error; name=encoded-integer-corrupted"⟩,
   ⟨"json", "ErrEncodedStringCorrupted", chars! "domain/json.ecma-international.org; type=error; name=encoded-string-corrupted"⟩,
   ⟨"json", "ErrEncodedArrayCorrupted", chars! "domain/json.ecma-international.org; type=error; name=encoded-array-corrupted"⟩,
   ⟨"json", "ErrEncodedSliceCorrupted", chars! "domain/json.ecma-international.org; type=error; name=encoded-slice-corrupted"⟩]

/-- net/tcp/errors/errors.go:16-17 -/
def net_tcp_errors : List Declared :=
  [⟨"net/tcp/errors", "SegmentTooShort", chars! "domain/tcp.wg.ietf.org; type=error; name=packet-too-short"⟩,
   ⟨"net/tcp/errors", "SegmentWrongLength", chars! "domain/tcp.wg.ietf.org; type=error; name=packet-wrong-length"⟩]

/-- net/uri/errors/errors.go:18-21 -/
def net_uri_errors : List Declared :=
  [⟨"net/uri/errors", "ErrParse", chars! "domain/uri.wg.ietf.org; type=error; name=parse-uri"⟩,
   ⟨"net/uri/errors", "ErrQueryBadKey", chars! "domain/uri.wg.ietf.org; type=error; name=query-bad-key"⟩,
   ⟨"net/uri/errors", "ErrInvalidURLEscape", chars! "domain/uri.wg.ietf.org; type=error; name=invalid-url-escape "⟩,
   ⟨"net/uri/errors", "ErrInvalidHostEscape", chars! "domain/uri.wg.ietf.org; type=error; name=invalid-host-escape "⟩]

/-- net/http/errors/init.go:36-58 -/
def net_http_errors : List Declared :=
  [⟨"net/http/errors", "ErrNoConnection", chars! "domain/http.wg.ietf.org; type=error; name=no-connection"⟩,
   ⟨"net/http/errors", "ErrPacketTooShort", chars! "domain/http.wg.ietf.org; type=error; name=packet-too-short"⟩,
   ⟨"net/http/errors", "ErrPacketTooLong", chars! "domain/http.wg.ietf.org; type=error; name=packet-too-long"⟩,
   ⟨"net/http/errors", "ErrParseMethod", chars! "domain/http.wg.ietf.org; type=error; name=parse-method"⟩,
   ⟨"net/http/errors", "ErrParseVersion", chars! "domain/http.wg.ietf.org; type=error; name=parse-version"⟩,
   ⟨"net/http/errors", "ErrParseStatusCode", chars! "domain/http.wg.ietf.org; type=error; name=parse-status-code"⟩,
   ⟨"net/http/errors", "ErrParseReasonPhrase", chars! "domain/http.wg.ietf.org; type=error; name=parse-reason-phrase"⟩,
   ⟨"net/http/errors", "ErrParseHeaderTooLarge", chars! "domain/http.wg.ietf.org; type=error; name=parse-header-too-large"⟩,
   ⟨"net/http/errors", "ErrCookieBadName", chars! "domain/http.wg.ietf.org; type=error; name=cookie-bad-name"⟩,
   ⟨"net/http/errors", "ErrCookieBadValue", chars! "domain/http.wg.ietf.org; type=error; name=cookie-bad-value"⟩,
   ⟨"net/http/errors", "ErrCookieBadPath", chars! "domain/http.wg.ietf.org; type=error; name=cookie-bad-path"⟩,
   ⟨"net/http/errors", "ErrCookieBadDomain", chars! "domain/http.wg.ietf.org; type=error; name=cookie-bad-domain"⟩,
   ⟨"net/http/errors", "ErrNotFound", chars! "domain/http.wg.ietf.org; type=error; name=not-found"⟩,
   ⟨"net/http/errors", "ErrServiceNotAcceptHTTP", chars! "domain/http.wg.ietf.org; type=error; name=service_not_accept_http"⟩,
   ⟨"net/http/errors", "ErrUnsupportedMediaType", chars! "domain/http.wg.ietf.org; type=error; name=unsupported-media-type"⟩,
   ⟨"net/http/errors", "UnsupportedTransferEncoding", chars! "domain/http.wg.ietf.org; type=error; name=unsupported-media-type"⟩,
   ⟨"net/http/errors", "ErrBadHost", chars! "domain/http.wg.ietf.org; type=error; name=unsupported-media-type"⟩,
   ⟨"net/http/errors", "ErrBodySizeMismatch", chars! "domain/http.wg.ietf.org; type=error; name=body-size-mismatched"⟩]

/-- net/gp/errors.go:18-21 -/
def net_gp : List Declared :=
  [⟨"net/gp", "ErrFrameLength", chars! "domain/gp.scm.geniuses.group; type=error; name=frame-length"⟩,
   ⟨"net/gp", "ErrBadFrameType", chars! "domain/gp.scm.geniuses.group; type=error; name=bad-frame-type"⟩,
   ⟨"net/gp", "ErrFrameArrivedAnterior", chars! "domain/gp.scm.geniuses.group; type=error; name=frame-arrived-anterior"⟩,
   ⟨"net/gp", "ErrFrameArrivedPosterior", chars! "domain/gp.scm.geniuses.group; type=error; name=frame-arrived-posterior"⟩]

/-- net/chapar/errors.go:22-29 -/
def net_chapar : List Declared :=
  [⟨"net/chapar", "ErrShortFrameLength", chars! "domain/chapar.scm.geniuses.group; type=error; name=short-frame-length"⟩,
   ⟨"net/chapar", "ErrLongFrameLength", chars! "domain/chapar.scm.geniuses.group; type=error; name=long-frame-length"⟩,
   ⟨"net/chapar", "ErrBadFrameType", chars! "domain/chapar.scm.geniuses.group; type=error; name=bad-frame-type"⟩,
   ⟨"net/chapar", "ErrMTU", chars! "domain/chapar.scm.geniuses.group; type=error; name=maximum-transmission-unit"⟩,
   ⟨"net/chapar", "ErrPortNotExist", chars! "domain/chapar.scm.geniuses.group; type=error; name=port-not-exist"⟩,
   ⟨"net/chapar", "ErrPathAlreadyUse", chars! "domain/chapar.scm.geniuses.group; type=error; name=path-already-use"⟩,
   ⟨"net/chapar", "ErrPathAlreadyExist", chars! "domain/chapar.scm.geniuses.group; type=error; name=path-already-exist"⟩,
   ⟨"net/chapar", "ErrNotAcceptLastHop", chars! "domain/chapar.scm.geniuses.group; type=error; name=not-accept-last-hop"⟩]

/-- net/ipv6/errors.go:15-15 -/
def net_ipv6 : List Declared :=
  [⟨"net/ipv6", "ErrPacketTooShort", chars! "domain/ipv6.wg.ietf.org; type=error; name=packet-too-short"⟩]

/-- net/ipv4/errors.go:16-17 -/
def net_ipv4 : List Declared :=
  [⟨"net/ipv4", "ErrPacketTooShort", chars! "domain/ipv4.wg.ietf.org; type=error; name=packet-too-short"⟩,
   ⟨"net/ipv4", "ErrPacketWrongLength", chars! "domain/ipv4.wg.ietf.org; type=error; name=packet-wrong-length"⟩]

/-- math/errors/errors.go:17-19 -/
def math_errors : List Declared :=
  [⟨"math/errors", "ErrEmptyValue", chars! "domain/memar.scm.geniuses.group; package=convert; type=error; name=empty-value"⟩,
   ⟨"math/errors", "ErrValueOutOfRange", chars! "domain/memar.scm.geniuses.group; package=convert; type=error; name=value-out-of-range"⟩,
   ⟨"math/errors", "ErrBadValue", chars! "domain/memar.scm.geniuses.group; package=convert; type=error; name=bad-value"⟩]

/-- operation/services/errors/errors.go:18-21 -/
def operation_services_errors : List Declared :=
  [⟨"operation/services/errors", "ErrNotFound", chars! "domain/memar.scm.geniuses.group; type=error; package=service; name=not_found"⟩,
   ⟨"operation/services/errors", "ErrServiceNotProvideIdentifier", chars! "domain/memar.scm.geniuses.group; type=error; package=service; name=service_not_provide_identifier"⟩,
   ⟨"operation/services/errors", "ErrServiceDuplicateIdentifier", chars! "domain/memar.scm.geniuses.group; type=error; package=service; name=service_duplicate_identifier"⟩]

/-- validators/errors.go:17-19 -/
def validators : List Declared :=
  [⟨"validators", "ErrTextOverFlow", chars! "domain/libgo.scm.geniuses.group; package=validators; type=error; name=text-over-flow"⟩,
   ⟨"validators", "ErrTextLack", chars! "domain/libgo.scm.geniuses.group; package=validators; type=error; name=text-lack"⟩,
   ⟨"validators", "ErrTextIllegalCharacter", chars! "domain/libgo.scm.geniuses.group; package=validators; type=error; name=text-illegal-character"⟩]

/-- achaemenid/errors/bad_request.go:16, achaemenid/errors/bad_response.go:16, achaemenid/errors/internal_error.go:16, achaemenid/errors/protocol_handler.go:16, achaemenid/errors/guest_connection_not_allow.go:16, achaemenid/errors/guest_connection_max_reached.go:16, achaemenid/errors/not_standard_id.go:16 -/
def achaemenid_errors : List Declared :=
  [⟨"achaemenid/errors", "ErrBadRequest", chars! "domain/memar.scm.geniuses.group; package=achaemenid; type=error; name=bad-request"⟩,
   ⟨"achaemenid/errors", "ErrBadResponse", chars! "domain/memar.scm.geniuses.group; package=achaemenid; type=error; name=bad-response"⟩,
   ⟨"achaemenid/errors", "ErrInternalError", chars! "domain/memar.scm.geniuses.group; package=achaemenid; type=error; name=internal-error"⟩,
   ⟨"achaemenid/errors", "ErrProtocolHandler", chars! "domain/memar.scm.geniuses.group; package=achaemenid; type=error; name=protocol-handler"⟩,
   ⟨"achaemenid/errors", "ErrGuestConnectionNotAllow", chars! "domain/memar.scm.geniuses.group; package=achaemenid; type=error; name=guest-connection-not-allow"⟩,
   ⟨"achaemenid/errors", "ErrGuestConnectionMaxReached", chars! "domain/memar.scm.geniuses.group; package=achaemenid; type=error; name=guest-connection-max-reached"⟩,
   ⟨"achaemenid/errors", "ErrNotStandardID", chars! "domain/memar.scm.geniuses.group; package=achaemenid; type=error; name=not-standard-id"⟩]

/-- compress/errors/source_not_changeable.go:16-16 -/
def compress_errors : List Declared :=
  [⟨"compress/errors", "ErrSourceNotChangeable", chars! "domain/memar.scm.geniuses.group; package=compress; type=error; name=source-not-changeable"⟩]

/-- compress-types/errors/not_found.go:16-16 -/
def compress_types_errors : List Declared :=
  [⟨"compress-types/errors", "ErrNotFound", chars! "domain/memar.scm.geniuses.group; package=compress-types; type=error; name=not-found"⟩]

/-- errors/error-not_found.go:17, errors/error-not_exist.go:15, errors/error-not_provide_identifier.go:15, errors/error-duplicate_identifier.go:15 -/
def errors : List Declared :=
  [⟨"errors", "ErrNotFound", chars! "domain/memar.scm.geniuses.group; package=errors; type=error; name=not_found"⟩,
   ⟨"errors", "ErrNotExist", chars! "domain/memar.scm.geniuses.group; package=errors; type=error; name=not_exist"⟩,
   ⟨"errors", "ErrNotProvideIdentifier", chars! "domain/memar.scm.geniuses.group; package=errors; type=error; name=not_provide_identifier"⟩,
   ⟨"errors", "ErrDuplicateIdentifier", chars! "domain/memar.scm.geniuses.group; package=errors; type=error; name=duplicate_identifier"⟩]

/-- net/errors/no_connection.go:20, net/errors/send_request.go:20, net/errors/protocol_handler.go:20, net/errors/guest_not_allow.go:20, net/errors/guest_max_reached.go:20 -/
def net_errors : List Declared :=
  [⟨"net/errors", "ErrNoConnection", chars! "domain/memar.scm.geniuses.group; package=net; type=error; name=no-connection"⟩,
   ⟨"net/errors", "ErrSendRequest", chars! "domain/memar.scm.geniuses.group; package=connection; type=error; name=send-request"⟩,
   ⟨"net/errors", "ErrProtocolHandler", chars! "domain/memar.scm.geniuses.group; package=connection; type=error; name=protocol-handler"⟩,
   ⟨"net/errors", "ErrGuestNotAllow", chars! "domain/memar.scm.geniuses.group; package=connection; type=error; name=guest-not-allow"⟩,
   ⟨"net/errors", "ErrGuestMaxReached", chars! "domain/memar.scm.geniuses.group; package=connection; type=error; name=guest-max-reached"⟩]

/-- net/udp/errors/packet_too_short.go:15, net/udp/errors/packet_wrong_length.go:15 -/
def net_udp_errors : List Declared :=
  [⟨"net/udp/errors", "ErrPacketTooShort", chars! "domain/udp.wg.ietf.org; type=error; name=packet-too-short"⟩,
   ⟨"net/udp/errors", "ErrPacketWrongLength", chars! "domain/udp.wg.ietf.org; type=error; name=packet-wrong-length"⟩]

/-- operation/command/errors/service_not_found.go:16, operation/command/errors/service_call_by_alias.go:16, operation/command/errors/service_not_accept_cli.go:16, operation/command/errors/flag_not_found.go:16, operation/command/errors/flag_bad_syntax.go:16, operation/command/errors/flag_needs_an_arguments.go:16 -/
def operation_command_errors : List Declared :=
  [⟨"operation/command/errors", "ErrServiceNotFound", chars! "domain/memar.scm.geniuses.group; package=command; type=error; name=service-not-found"⟩,
   ⟨"operation/command/errors", "ErrServiceCallByAlias", chars! "domain/memar.scm.geniuses.group; package=command; type=error; name=service-call-by-alias"⟩,
   ⟨"operation/command/errors", "ErrServiceNotAcceptCLI", chars! "domain/memar.scm.geniuses.group; package=command; type=error; name=service-not-accept-cli"⟩,
   ⟨"operation/command/errors", "ErrFlagNotFound", chars! "domain/memar.scm.geniuses.group; package=command; type=error; name=flag-not_found"⟩,
   ⟨"operation/command/errors", "ErrFlagBadSyntax", chars! "domain/memar.scm.geniuses.group; package=command; type=error; name=flag_bad_syntax"⟩,
   ⟨"operation/command/errors", "ErrFlagNeedsAnArgument", chars! "domain/memar.scm.geniuses.group; package=command; type=error; name=flag_needs_an_arguments"⟩]

/-- timer/errors/timer_not_init.go:16, timer/errors/timer_already_init.go:16, timer/errors/timer_already_started.go:16, timer/errors/negative_duration.go:16, timer/errors/negative_period_number.go:16, timer/errors/timer_bad_status.go:16, timer/errors/timer_racy_access.go:16 -/
def timer_errors : List Declared :=
  [⟨"timer/errors", "ErrTimerNotInit", chars! "domain/memar.scm.geniuses.group; package=timer; type=error; name=timer-not-initialize"⟩,
   ⟨"timer/errors", "ErrTimerAlreadyInit", chars! "domain/memar.scm.geniuses.group; package=timer; type=error; name=timer-already-initialized"⟩,
   ⟨"timer/errors", "ErrTimerAlreadyStarted", chars! "domain/memar.scm.geniuses.group; package=timer; type=error; name=timer-already-started"⟩,
   ⟨"timer/errors", "ErrNegativeDuration", chars! "domain/memar.scm.geniuses.group; package=timer; type=error; name=negative-duration"⟩,
   ⟨"timer/errors", "ErrNegativePeriodNumber", chars! "domain/memar.scm.geniuses.group; package=timer; type=error; name=negative-period-number"⟩,
   ⟨"timer/errors", "ErrTimerBadStatus", chars! "domain/memar.scm.geniuses.group; package=timer; type=error; name=timer-bad-status"⟩,
   ⟨"timer/errors", "ErrTimerRacyAccess", chars! "domain/memar.scm.geniuses.group; package=timer; type=error; name=timer-racy-access"⟩]

/-- Every error the packages declare, by the lines cited above. -/
def declared : List Declared :=
  json ++ net_tcp_errors ++ net_uri_errors ++ net_http_errors ++ net_gp ++ net_chapar ++ net_ipv6 ++ net_ipv4 ++ math_errors ++ operation_services_errors ++ validators ++ achaemenid_errors ++ compress_errors ++ compress_types_errors ++ errors ++ net_errors ++ net_udp_errors ++ operation_command_errors ++ timer_errors

/-- The value of the variable once it is initialised; `hash` gives the identifier, `summary` the text for people. -/
def Declared.value (hash : Bytes → BitVec 64) (summary : Declared → Bytes) (e : Declared) : ErrorValue.Error :=
  .base e.mediaType (hash e.mediaType) (summary e)

/-- What the registry of errors asks of a variable (errors/errors.go:25 and 38). -/
def keys (hash : Bytes → BitVec 64) : Keys Declared := ⟨fun e => hash e.mediaType, fun e => e.mediaType⟩

/-- The registry of errors after the packages initialised their errors, one after the other (errors/init.go:5-12, timer/errors/init.go:5-14 and the like). -/
def initialised (hash : Bytes → BitVec 64) (dev : Bool) (l : List Declared) : Errors.State Declared :=
  Errors.run (keys hash) dev (l.map .register)

/-! ## Specification -/

/-- Specification: the three errors of net/http/errors that are given one media type. -/
def Spec.alike : List (String × String) :=
  [("net/http/errors", "ErrUnsupportedMediaType"), ("net/http/errors", "UnsupportedTransferEncoding"), ("net/http/errors", "ErrBadHost")]

/-- Specification: one of the three. -/
def Spec.Alike (e : Declared) : Prop := (e.pkg, e.name) ∈ Spec.alike

instance (e : Declared) : Decidable (Spec.Alike e) := inferInstanceAs (Decidable (_ ∈ _))

/-! ## Proofs -/

/-- A number for a text, to compare the texts quickly. -/
def mark (t : Bytes) : Nat := t.foldl (fun a c => (a * 257 + c.toNat) % 1000003) 0

def marks : List Nat :=
  [233641, 425713, 237957, 880139, 201300, 214856, 342935, 841613, 789177, 53119, 92982, 974325, 759666, 196543, 559333, 216010, 896763, 917560, 
  768316, 922436, 49223, 246947, 109, 989443, 953780, 652936, 624126, 624126, 624126, 70586, 524203, 208000, 920835, 355849, 743755, 859148, 145563, 
  900221, 60246, 326035, 70671, 239822, 865673, 151535, 488194, 869811, 307963, 778233, 768918, 840829, 677480, 931918, 225820, 159708, 398433, 584633, 
  150955, 954165, 895001, 378238, 477143, 174375, 76647, 942838, 465117, 427863, 70680, 40551, 824611, 672825, 750790, 414474, 89021, 964833, 964152, 
  703037, 89288, 867401, 502044, 362986, 392421, 538879, 483770, 147633, 161040, 4080, 167624]

theorem marks_eq : declared.map (fun e => mark e.mediaType) = marks := by decide +kernel

theorem marks_nodup : (marks.filter (· ≠ 624126)).Nodup := by decide +kernel

theorem alike_iff : ∀ e ∈ declared, (mark e.mediaType = 624126 ↔ Spec.Alike e) := by decide +kernel

theorem alike_text : ∀ a ∈ declared, Spec.Alike a → a.mediaType = (chars! "domain/http.wg.ietf.org; type=error; name=unsupported-media-type").map fun c => BitVec.ofNat 8 c.toNat := by
  decide +kernel

theorem inj_of_nodup_map {α β : Type} (f : α → β) : ∀ {l : List α}, (l.map f).Nodup → ∀ a ∈ l, ∀ b ∈ l, f a = f b → a = b
  | [], _, _, ha, _, _, _ => absurd ha (by simp)
  | c :: l, h, a, ha, b, hb, e => by
    simp only [List.map_cons, List.nodup_cons, List.mem_map, not_exists, not_and] at h
    rcases List.mem_cons.mp ha with rfl | ha' <;> rcases List.mem_cons.mp hb with rfl | hb'
    · rfl
    · exact absurd e.symm (h.1 b hb')
    · exact absurd e (h.1 a ha')
    · exact inj_of_nodup_map f h.2 a ha' b hb' e

theorem text_inj (a b : Declared) (ha : a ∈ declared) (hb : b ∈ declared) (h : a.mediaType = b.mediaType) : a = b ∨ Spec.Alike a ∧ Spec.Alike b := by
  by_cases hm : mark a.mediaType = 624126
  · exact Or.inr ⟨(alike_iff a ha).mp hm, (alike_iff b hb).mp (h ▸ hm)⟩
  · left
    have hn := marks_nodup
    rw [← marks_eq, List.filter_map] at hn
    exact inj_of_nodup_map _ hn a (List.mem_filter.mpr ⟨ha, by simpa using hm⟩) b (List.mem_filter.mpr ⟨hb, by simpa [← h] using hm⟩) (by rw [h])

/-- **C308**, the part that holds: of the errors that the packages declare, two are equal only if they are one, or both are among the three HTTP errors with one media type.
Missing: also the three are told apart (refuted: `C308_told_apart_violated`). -/
theorem C308_told_apart_partial (hash : Bytes → BitVec 64) (summary : Declared → Bytes) (a b : Declared) (ha : a ∈ declared) (hb : b ∈ declared) :
    ErrorValue.isEqual (some (a.value hash summary)) (some (b.value hash summary)) = true ↔ a = b ∨ Spec.Alike a ∧ Spec.Alike b := by
  have : ErrorValue.isEqual (some (a.value hash summary)) (some (b.value hash summary)) = true ↔ a.mediaType = b.mediaType := by
    simp only [ErrorValue.isEqual, Declared.value, ErrorValue.Error.mediaType, ErrorValue.Error.dataTypeID, Bool.and_eq_true, beq_iff_eq]
    exact ⟨And.left, fun h => ⟨h, by rw [h]⟩⟩
  rw [this]
  constructor
  · exact text_inj a b ha hb
  · rintro (rfl | ⟨h1, h2⟩)
    · rfl
    · rw [alike_text a ha h1, alike_text b hb h2]

example : declared.length = 87 ∧ (declared.filter fun e => Spec.Alike e).length = 3 := by decide +kernel

/-- C308 violated: `ErrUnsupportedMediaType`, `UnsupportedTransferEncoding` and `ErrBadHost` of net/http/errors are three variables, and any two of them are equal,
whatever the hash: who is refused because of the host, and asks what happened, is told that the media type is not supported. -/
theorem C308_told_apart_violated (hash : Bytes → BitVec 64) (summary : Declared → Bytes) :
    (declared.filter fun e => Spec.Alike e).map (fun e => (e.pkg, e.name)) = Spec.alike ∧
    ∀ a ∈ declared, ∀ b ∈ declared, Spec.Alike a → Spec.Alike b → ErrorValue.isEqual (some (a.value hash summary)) (some (b.value hash summary)) = true :=
  ⟨by decide +kernel, fun a ha b hb h1 h2 => (C308_told_apart_partial hash summary a b ha hb).mpr (Or.inr ⟨h1, h2⟩)⟩

/-! ### The registry -/

/-- What is kept while errors are registered. -/
structure Kept (hash : Bytes → BitVec 64) (l : List Declared) (s : Errors.State Declared) : Prop where
  text : ∀ t y, s.byMediaType t = some y → y ∈ l ∧ y.mediaType = t
  has : ∀ x ∈ l, (s.byMediaType x.mediaType).isSome
  agree : ∀ x ∈ declared, s.byID (hash x.mediaType) = s.byMediaType x.mediaType
  ident : ∀ k y, s.byID k = some y → y ∈ l ∧ hash y.mediaType = k

/-- The hash has no collisions among the media types, and none has the identifier zero. -/
def Spec.Good (hash : Bytes → BitVec 64) : Prop :=
  (∀ a ∈ declared, hash a.mediaType ≠ 0#64) ∧ ∀ a ∈ declared, ∀ b ∈ declared, hash a.mediaType = hash b.mediaType → a.mediaType = b.mediaType

theorem register_eq (hash : Bytes → BitVec 64) (dev : Bool) (s : Errors.State Declared) (x : Declared) :
    Errors.register (keys hash) dev s x = if dev && hash x.mediaType == 0#64 then (s, some .notProvideIdentifier)
      else if dev && (s.byID (hash x.mediaType)).isSome then (s, some .duplicateIdentifier)
      else (⟨put s.byID (hash x.mediaType) x, put s.byMediaType x.mediaType x⟩, none) := rfl

theorem kept_step {hash : Bytes → BitVec 64} (hg : Spec.Good hash) (dev : Bool) {l : List Declared} {s : Errors.State Declared} (k : Kept hash l s) (x : Declared) (hx : x ∈ declared) :
    Kept hash (l ++ [x]) (Errors.register (keys hash) dev s x).1 := by
  rw [register_eq]
  split
  · rename_i h
    simp [hg.1 x hx] at h
  split
  · rename_i h
    simp only [Bool.and_eq_true] at h
    refine ⟨?_, ?_, k.agree, ?_⟩
    · intro t y hy
      have := k.text t y hy
      exact ⟨List.mem_append_left _ this.1, this.2⟩
    · intro y hy
      rcases List.mem_append.mp hy with hy | hy
      · exact k.has y hy
      · rw [List.mem_singleton] at hy
        rw [hy, ← k.agree x hx]; exact h.2
    · intro i y hy
      have := k.ident i y hy
      exact ⟨List.mem_append_left _ this.1, this.2⟩
  · refine ⟨?_, ?_, ?_, ?_⟩
    · intro t y hy
      simp only [put] at hy
      split at hy
      · rename_i e
        cases hy
        exact ⟨by simp, by simpa using e.symm⟩
      · have := k.text t y hy
        exact ⟨List.mem_append_left _ this.1, this.2⟩
    · intro y hy
      simp only [put]
      split
      · rfl
      · rename_i e
        rcases List.mem_append.mp hy with hy | hy
        · exact k.has y hy
        · rw [List.mem_singleton] at hy
          subst hy; exact absurd rfl e
    · intro y hy
      simp only [put]
      by_cases e : y.mediaType = x.mediaType
      · rw [if_pos (by rw [e]), if_pos e]
      · rw [if_neg (fun h => e (hg.2 y hy x hx h)), if_neg e]
        exact k.agree y hy
    · intro i y hy
      simp only [put] at hy
      split at hy
      · rename_i e
        cases hy
        exact ⟨by simp, by simpa using e.symm⟩
      · have := k.ident i y hy
        exact ⟨List.mem_append_left _ this.1, this.2⟩

theorem kept_run {hash : Bytes → BitVec 64} (hg : Spec.Good hash) (dev : Bool) : ∀ (l l0 : List Declared) (s : Errors.State Declared), Kept hash l0 s → (∀ x ∈ l, x ∈ declared) →
    Kept hash (l0 ++ l) ((l.map Op.register).foldl (Errors.step (keys hash) dev) s)
  | [], l0, s, k, _ => by simpa using k
  | x :: l, l0, s, k, h => by
    have := kept_run hg dev l (l0 ++ [x]) _ (kept_step hg dev k x (h x (by simp))) (fun y hy => h y (by simp [hy]))
    rw [List.append_assoc] at this
    exact this

theorem kept_initialised {hash : Bytes → BitVec 64} (hg : Spec.Good hash) (dev : Bool) (l : List Declared) (h : ∀ x ∈ l, x ∈ declared) : Kept hash l (initialised hash dev l) :=
  kept_run hg dev l [] Errors.init ⟨by simp [Errors.init], by simp, by simp [Errors.init], by simp [Errors.init]⟩ h

/-- **C308**, the part that holds: whichever of the packages a program has, and in whatever order they are initialised, in developer mode or not, if the hash has no
collisions among these media types, an error that is not among the three is registered without an error and is what both lookups then find.
Missing: also the three are found (refuted: `C308_found_violated`). -/
theorem C308_found_partial (hash : Bytes → BitVec 64) (hg : Spec.Good hash) (dev : Bool) (l1 l2 : List Declared) (x : Declared)
    (hl : ∀ y ∈ l1 ++ x :: l2, y ∈ declared) (hn : (l1 ++ x :: l2).Nodup) (hx : ¬ Spec.Alike x) :
    (Errors.register (keys hash) dev (initialised hash dev l1) x).2 = none ∧
    Errors.getByMediaType (initialised hash dev (l1 ++ x :: l2)) x.mediaType = .found x ∧
    Errors.getByID (initialised hash dev (l1 ++ x :: l2)) (hash x.mediaType) = .found x := by
  have hxd := hl x (by simp)
  have uniq : ∀ y ∈ declared, y.mediaType = x.mediaType → y = x := by
    intro y hy e
    rcases text_inj y x hy hxd e with h | h
    · exact h
    · exact absurd h.2 hx
  have k1 := kept_initialised hg dev l1 (fun y hy => hl y (by simp [hy]))
  have k := kept_initialised hg dev _ hl
  have hnone : (initialised hash dev l1).byID (hash x.mediaType) = none := by
    cases h : (initialised hash dev l1).byID (hash x.mediaType) with
    | none => rfl
    | some y =>
      obtain ⟨h1, h2⟩ := k1.ident _ y h
      have hyd := hl y (by simp [h1])
      have := uniq y hyd (hg.2 y hyd x hxd h2)
      subst this
      exact absurd (List.nodup_append.mp hn).2.2 (fun h => h y h1 y (by simp) rfl)
  have hsome : (initialised hash dev (l1 ++ x :: l2)).byMediaType x.mediaType = some x := by
    have := k.has x (by simp)
    obtain ⟨y, hy⟩ := Option.isSome_iff_exists.mp this
    obtain ⟨h1, h2⟩ := k.text _ y hy
    rw [hy, uniq y (hl y h1) h2]
  refine ⟨?_, ?_, ?_⟩
  · rw [register_eq, if_neg (by simp [hg.1 x hxd]), hnone, if_neg (by simp)]
  · simp [Errors.getByMediaType, hsome]
  · unfold Errors.getByID
    rw [if_neg (hg.1 x hxd), k.agree x hxd, hsome]

/-- C308 violated: of the three HTTP errors, in whatever order they and the others are initialised, one is found and the other two never: no text and no identifier
finds them. -/
theorem C308_found_violated (hash : Bytes → BitVec 64) (hg : Spec.Good hash) (dev : Bool) (l : List Declared) (hl : ∀ y ∈ l, y ∈ declared)
    (h3 : ∀ y ∈ declared, Spec.Alike y → y ∈ l) :
    ∃ x ∈ l, Spec.Alike x ∧ Errors.getByMediaType (initialised hash dev l) x.mediaType = .found x ∧
      ∀ y ∈ l, Spec.Alike y → y ≠ x →
        (∀ t, Errors.getByMediaType (initialised hash dev l) t ≠ .found y) ∧ ∀ k, Errors.getByID (initialised hash dev l) k ≠ .found y := by
  have k := kept_initialised hg dev l hl
  obtain ⟨a, had, haa⟩ : ∃ a ∈ declared, Spec.Alike a := by decide +kernel
  obtain ⟨x, hx⟩ := Option.isSome_iff_exists.mp (k.has a (h3 a had haa))
  obtain ⟨h1, h2⟩ := k.text _ x hx
  have hxa : Spec.Alike x := by
    rcases text_inj x a (hl x h1) had h2 with h | h
    · exact h ▸ haa
    · exact h.1
  have same : ∀ y ∈ l, Spec.Alike y → y.mediaType = a.mediaType := fun y hy h => by rw [alike_text y (hl y hy) h, alike_text a had haa]
  refine ⟨x, h1, hxa, by rw [h2]; simp [Errors.getByMediaType, hx], ?_⟩
  intro y hy hya hne
  constructor
  · intro t ht
    unfold Errors.getByMediaType at ht
    split at ht
    · rename_i z hz
      cases ht
      have := (k.text t y hz).2
      rw [← this, same y hy hya, hx] at hz
      exact hne (Option.some.inj hz).symm
    · cases ht
  · intro i hi
    unfold Errors.getByID at hi
    split at hi
    · cases hi
    · split at hi
      · rename_i z hz
        cases hi
        have := (k.ident i y hz).2
        rw [← this, k.agree y (hl y hy), same y hy hya, hx] at hz
        exact hne (Option.some.inj hz).symm
      · cases hi

/-- A hash that meets the condition, for the example: the number of a text, plus one. -/
theorem good_mark : Spec.Good fun t => BitVec.ofNat 64 (mark t + 1) := by
  have lt : ∀ e ∈ declared, mark e.mediaType + 1 < 2 ^ 64 := by decide +kernel
  have key : ∀ a ∈ declared, (BitVec.ofNat 64 (mark a.mediaType + 1)).toNat = mark a.mediaType + 1 := by
    intro a ha
    rw [BitVec.toNat_ofNat, Nat.mod_eq_of_lt (lt a ha)]
  constructor
  · intro a ha h
    have := congrArg BitVec.toNat h
    simp only [key a ha] at this
    simp at this
  · intro a ha b hb h
    have h := congrArg BitVec.toNat h
    simp only [key a ha, key b hb] at h
    have h : mark a.mediaType = mark b.mediaType := by omega
    by_cases hm : mark a.mediaType = 624126
    · rw [alike_text a ha ((alike_iff a ha).mp hm), alike_text b hb ((alike_iff b hb).mp (h ▸ hm))]
    · have hn := marks_nodup
      rw [← marks_eq, List.filter_map] at hn
      rw [inj_of_nodup_map _ hn a (List.mem_filter.mpr ⟨ha, by simpa using hm⟩) b (List.mem_filter.mpr ⟨hb, by simpa [← h] using hm⟩) h]

example := C308_found_violated _ good_mark true declared (fun _ h => h) (fun _ h _ => h)
example : ∃ x ∈ errors, Errors.getByMediaType (initialised (fun t => BitVec.ofNat 64 (mark t + 1)) true errors) x.mediaType = .found x := by
  refine ⟨errors.head (by simp [errors]), by decide +kernel, ?_⟩
  exact (C308_found_partial _ good_mark true [] errors.tail _ (by decide +kernel) (by decide +kernel) (by decide +kernel)).2.1

/-- C308 violated: the media types of `ErrInvalidURLEscape` and `ErrInvalidHostEscape` of net/uri/errors end with a space. Who asks for one of them without the space, as all
others are written, is told that there is no such error, whatever was initialised. -/
theorem C308_space_violated (hash : Bytes → BitVec 64) (hg : Spec.Good hash) (dev : Bool) (l : List Declared) (hl : ∀ y ∈ l, y ∈ declared) :
    ∀ e ∈ declared, e.mediaType.getLast? = some (ch ' ') →
      (e.pkg = "net/uri/errors" ∧ (e.name = "ErrInvalidURLEscape" ∨ e.name = "ErrInvalidHostEscape")) ∧
      Errors.getByMediaType (initialised hash dev l) e.mediaType.dropLast = .notFound := by
  intro e he hs
  have h1 : ∀ e ∈ declared, e.mediaType.getLast? = some (ch ' ') → e.pkg = "net/uri/errors" ∧ (e.name = "ErrInvalidURLEscape" ∨ e.name = "ErrInvalidHostEscape") := by
    decide +kernel
  have h2 : ∀ e ∈ declared, e.mediaType.getLast? = some (ch ' ') → ∀ y ∈ declared, y.mediaType ≠ e.mediaType.dropLast := by decide +kernel
  refine ⟨h1 e he hs, ?_⟩
  unfold Errors.getByMediaType
  split
  · rename_i y hy
    have := (kept_initialised hg dev l hl).text _ y hy
    exact absurd this.2 (h2 e he hs y (hl y this.1))
  · rfl

example : (declared.filter fun e => e.mediaType.getLast? = some (ch ' ')).length = 2 := by decide +kernel

end Memar.Registry.Declared

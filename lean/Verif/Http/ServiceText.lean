import Verif.Http.ServicesProps
import Verif.Http.ExchangeProps
import Verif.Identifier.GoBase64Props

/-!
# The service multiplexer with the base64 decoder of the standard library (C293)

`Verif.Http.Services` leaves the decoder open. Here it is the one of `Verif.Identifier.GoBase64`.
-/

namespace Memar.Http
open Memar Memar.Identifier Memar.Identifier.Go64

variable {S E : Type}

/-- identifier/32byte/uuid.go:102-112: decoding into an array of eight bytes, and the number in it. -/
def readQuery (q : Bytes) : Option (Option U64) :=
  if (decode [] q).1.length ≤ 8 then
    if (decode [] q).2 then (Binary.LE.uint64 (goCopy (List.replicate 8 0#8) (decode [] q).1)).map some else some none
  else none

/-- The rest of the system, with the decoder of the standard library. -/
def Env.real (env : Env S E) : Env S E := { env with base64RawURL := readQuery }

theorem real_id (env : Env S E) (q : Bytes) :
    Http.idFromString env.real q = (Go64.idFromString q).map Except.ok := by
  unfold Http.idFromString Env.real readQuery Go64.idFromString U32B.idFromString
  simp only []
  split
  · next h =>
    split at h
    · split at h
      · cases hu : Binary.LE.uint64 (goCopy (List.replicate 8 0#8) (decode [] q).1) with
        | none => rw [if_pos (by assumption), if_pos (by assumption)]; rfl
        | some v => rw [hu] at h; cases h
      · cases h
    · next hn => rw [if_neg hn]; rfl
  · next h =>
    split at h
    · next h1 =>
      split at h
      · cases hu : Binary.LE.uint64 (goCopy (List.replicate 8 0#8) (decode [] q).1) <;> rw [hu] at h <;> cases h
      · next h2 => rw [if_pos h1, if_neg h2]; rfl
    · cases h
  · next id h =>
    split at h
    · next h1 =>
      split at h
      · next h2 =>
        rw [if_pos h1, if_pos h2]
        cases hu : Binary.LE.uint64 (goCopy (List.replicate 8 0#8) (decode [] q).1) with
        | none => rw [hu] at h; cases h
        | some v => rw [hu] at h; cases h; rfl
      · cases h
    · cases h

theorem mux_none_iff (env : Env S E) (parse : Bytes → Option (Except E U64)) (req : Request) (res : Response) :
    mux env parse req res = none ↔ req.method = bs "POST" ∧ parse req.query = none := by
  unfold mux
  by_cases hm : req.method = bs "POST"
  · rw [if_neg (by simpa using hm)]
    cases hp : parse req.query with
    | none => simp [hm]
    | some p =>
      simp only [hm, true_and, Option.bind_eq_bind, Option.bind_some, reduceCtorEq, iff_false]
      cases p with
      | error e =>
        obtain ⟨h', e'⟩ := setError_total env (res.setStatus (bs "400") (bs "Bad Request")) e
        simp [e']
      | ok id =>
        simp only []
        cases hg : env.getServiceByID id with
        | error e =>
          obtain ⟨h', e'⟩ := setError_total env (res.setStatus (bs "404") (bs "Not Found")) env.errNotFound
          simp [e']
        | ok s =>
          obtain ⟨h', e'⟩ := hset_total res (bs "X-Robots-Tag") (bs "noindex")
          simp only [e', Option.bind_some]
          cases hs : (env.serve s { res with header := h' }).2 with
          | none => simp
          | some e =>
            obtain ⟨h'', e''⟩ := setError_total env (env.serve s { res with header := h' }).1 e
            simp [e'']
  · rw [if_pos (by simpa using hm)]
    simp [hm]

/-- C293 violated: a request brings the multiplexer down exactly when it is a POST whose query begins, line breaks aside, with twelve characters
of the alphabet of identifiers: it panics instead of answering, whatever services are registered. -/
theorem C293_request_panic_violated (env : Env S E) (req : Request) (res : Response) :
    mux env.real (Http.idFromString env.real) req res = none ↔ req.method = bs "POST" ∧ Go64.Spec.tooLong req.query := by
  rw [mux_none_iff, real_id, Option.map_eq_none_iff, C293_panic_violated]

example : mux demoEnv.real (Http.idFromString demoEnv.real) ⟨bs "POST", [], bs "/s", bs "name=somebody"⟩ Response.init =
    none → False := by
  rw [C293_request_panic_violated]
  unfold Go64.Spec.tooLong
  decide +kernel

example : ({ method := bs "POST", host := [], path := bs "/s", query := bs "identification" } : Request).method = bs "POST" ∧
    Go64.Spec.tooLong (bs "identification") := by
  unfold Go64.Spec.tooLong
  decide +kernel

/-- C293 violated: the same for the whole handler: a request to the path of the multiplexer that passes the host check panics. -/
theorem C293_handler_panic_violated (env : Env S E) (domainName : Bytes) (req : Request) (hp : req.path = bs "/s") (hm : req.method = bs "POST")
    (hq : Go64.Spec.tooLong req.query) : handleIncome env.real true domainName (.ok req) = none := by
  simp only [handleIncome, serveV1, hostGate, if_true, Bool.not_true, Bool.false_eq_true, if_false, dispatchV1, hp]
  rw [(C293_request_panic_violated env req Response.init).mpr ⟨hm, hq⟩]; rfl

example : Go64.Spec.tooLong (bs "AAAAAAAAAAAAAAAA") := by
  unfold Go64.Spec.tooLong
  decide +kernel

/-- **C293** the part that holds: a POST whose query is the text of an identifier runs the service registered with that identifier, and that one
only. Missing: other queries, see `C293_request_panic_violated` and `C293_any_query_violated`. -/
theorem C293_service_by_text_partial (env : Env S E) (req : Request) (res : Response) (hm : req.method = bs "POST") (id : Bytes) (hid : id.length = 32)
    (hq : Go64.idAsString id = some req.query) (n : U64) (hn : U32B.id id = some n) (s : S) (hs : env.getServiceByID n = .ok s) :
    ∃ o, mux env.real (Http.idFromString env.real) req res = some o ∧ o.ran = [s] := by
  obtain ⟨t, m, h1, h2, h3⟩ := C293_round_trip_partial id hid
  rw [hq] at h1
  cases h1
  rw [hn] at h2
  cases h2
  cases ho : mux env.real (Http.idFromString env.real) req res with
  | none =>
    have := (C293_panic_violated req.query).mpr (((C293_request_panic_violated env req res).mp ho).2)
    rw [h3] at this; cases this
  | some o =>
    refine ⟨o, rfl, ((C16_dispatch_iff env.real _ req res o ho s).2).mpr ⟨hm, n, ?_, hs⟩⟩
    rw [real_id, h3]; rfl

example : Go64.idAsString (5#8 :: List.replicate 31 0#8) = some (bs "BQAAAAAAAAA") ∧ U32B.id (5#8 :: List.replicate 31 0#8) = some 5#64 ∧
    demoEnv.getServiceByID 5 = .ok 7 := by
  refine ⟨by decide +kernel, by decide +kernel, rfl⟩

/-- C293 violated: queries that are no text of an identifier run the service registered with the identifier 0. -/
theorem C293_any_query_violated (env : Env S E) (req : Request) (res : Response) (hm : req.method = bs "POST") (hg : ¬ Go64.Spec.good req.query)
    (hl : ¬ Go64.Spec.tooLong req.query) (s : S) (hs : env.getServiceByID 0 = .ok s) :
    ∃ o, mux env.real (Http.idFromString env.real) req res = some o ∧ o.ran = [s] := by
  cases ho : mux env.real (Http.idFromString env.real) req res with
  | none => exact absurd (((C293_request_panic_violated env req res).mp ho).2) hl
  | some o =>
    refine ⟨o, rfl, ((C16_dispatch_iff env.real _ req res o ho s).2).mpr ⟨hm, 0, ?_, hs⟩⟩
    rw [real_id, C293_bad_text_violated req.query hg hl]; rfl

example : ¬ Go64.Spec.good (bs "user=1") ∧ ¬ Go64.Spec.tooLong (bs "user=1") := by
  unfold Go64.Spec.good Go64.Spec.tooLong
  decide +kernel

theorem urlChar_eq (d : Nat) (h : d < 64) : urlCharOf d = charOf d := by
  have : ∀ d : Fin 64, urlCharOf d.val = charOf d.val := by decide +kernel
  exact this ⟨d, h⟩

theorem idText_eq (b0 b1 b2 b3 b4 b5 b6 b7 : Byte) :
    (Base64.digits 64 11 (Base64.value 256 [b0.toNat, b1.toNat, b2.toNat, b3.toNat, b4.toNat, b5.toNat, b6.toNat, b7.toNat] * 4)).map urlCharOf =
      encode [b0, b1, b2, b3, b4, b5, b6, b7] := by
  have := b0.isLt
  have := b1.isLt
  have := b2.isLt
  have := b3.isLt
  have := b4.isLt
  have := b5.isLt
  have := b6.isLt
  have := b7.isLt
  rw [List.map_congr_left fun d hd => urlChar_eq d (Base64.digits_lt 64 (by omega) _ _ d hd)]
  simp only [Base64.digits, Base64.value, List.foldl_cons, List.foldl_nil, encode, List.map_append, List.map_cons, List.map_nil, List.nil_append,
    List.cons_append, List.cons.injEq, and_true]
  refine ⟨?_, ?_, ?_, ?_, ?_, ?_, ?_, ?_, ?_, ?_, ?_⟩ <;> congr 1 <;> omega

/-- **C293** the part that holds: the text by which a response names an error is read by `IDfromString` as the identifier of the error. Missing:
`GetError` reads it otherwise, see `C216_error_never_read_back_violated`. -/
theorem C293_error_text_partial (id : U64) : Go64.idFromString (idText id) = some id := by
  have hid := id.isLt
  have e : idText id = encode ((List.range 8).map fun i => BitVec.ofNat 8 (id.toNat / 256 ^ i)) := by
    have := idText_eq (BitVec.ofNat 8 (id.toNat / 1)) (BitVec.ofNat 8 (id.toNat / 256)) (BitVec.ofNat 8 (id.toNat / 65536))
      (BitVec.ofNat 8 (id.toNat / 16777216)) (BitVec.ofNat 8 (id.toNat / 4294967296)) (BitVec.ofNat 8 (id.toNat / 1099511627776))
      (BitVec.ofNat 8 (id.toNat / 281474976710656)) (BitVec.ofNat 8 (id.toNat / 72057594037927936))
    exact this
  rw [e, Go64.idFromString, C30_id_text_any (decode []) _ _ _ (decode_encode _)]
  simp only [List.length_map, List.length_range, Nat.lt_irrefl, if_false, if_true, Option.some.injEq]
  apply BitVec.eq_of_toNat_eq
  simp only [show List.range 8 = [0, 1, 2, 3, 4, 5, 6, 7] from rfl, List.map_cons, List.map_nil, Binary.Spec.leVal, BitVec.toNat_ofNat, Nat.reducePow]
  omega

example : idText 5#64 = bs "BQAAAAAAAAA" ∧ Go64.idFromString (bs "BQAAAAAAAAA") = some 5#64 := by decide +kernel

end Memar.Http

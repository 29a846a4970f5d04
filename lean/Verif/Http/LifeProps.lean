import Verif.Http.Life
import Verif.Http.HeaderProps

/-!
# C140: a message that is reset and used again

Specification: what a user did since the last reset (or since the message was made) decides what the
message answers.
-/

namespace Memar.Http
open Memar Memar.Http.Spec

variable {C : Type}

/-- The calls since the last reset. -/
def sinceReset : List (ReqOp C) → List (ReqOp C)
  | ops => (ops.foldl (fun acc o => match o with | .reinit => [] | o => acc ++ [o]) [])

/-- The last value that a kind of call set, or the empty one. -/
def lastOf? {O A : Type} (f : O → Option A) (dflt : A) (ops : List O) : A := ((ops.filterMap f).getLast?).getD dflt

/-- The value of a call that sets the method. -/
def ReqOp.methodOf : ReqOp C → Option Bytes | .setMethod m => some m | _ => none
/-- The value of a call that sets the version. -/
def ReqOp.versionOf : ReqOp C → Option Bytes | .setVersion v => some v | _ => none
/-- The five parts of a call that sets the URI. -/
def ReqOp.uriOf : ReqOp C → Option (Bytes × Bytes × Bytes × Bytes × Bytes)
  | .setURI s a p q f => some (s, a, p, q, f) | _ => none
/-- The line a call adds. -/
def ReqOp.lineOf : ReqOp C → Option KV | .add k v => some (k, v) | _ => none
/-- The codec a call sets. -/
def ReqOp.bodyOf : ReqOp C → Option (Option C) | .setBody c => some c | _ => none

/-- The five parts a URI answers. -/
def parts (u : Uri.URI) : Bytes × Bytes × Bytes × Bytes × Bytes :=
  (u.scheme, u.au.authority, u.path, u.query, u.fragment)

theorem lastOf?_append {O A : Type} (f : O → Option A) (d : A) (l : List O) (o : O) :
    lastOf? f d (l ++ [o]) = (f o).getD (lastOf? f d l) := by
  unfold lastOf?
  rw [List.filterMap_append]
  cases h : f o with
  | none => simp [h]
  | some a => simp [h]

/-- The number of lines added over a whole history. -/
def linesAdded (ops : List (ReqOp C)) : Nat := (ops.filterMap ReqOp.lineOf).length

/-- What the message holds, for a history `done` with the calls `acc` since the last reset. -/
def Holds (done acc : List (ReqOp C)) (r : ReqMsg C) : Prop :=
  r.method = lastOf? ReqOp.methodOf [] acc ∧ r.version = lastOf? ReqOp.versionOf [] acc ∧
  parts r.uri = lastOf? ReqOp.uriOf ([], [], [], [], []) acc ∧ r.body = lastOf? ReqOp.bodyOf none acc ∧
  (∃ n : Nat, r.header.lines = List.replicate n ([], []) ++ acc.filterMap ReqOp.lineOf) ∧
  r.header.lines.length = headerInitLen + linesAdded done ∧
  (r.uri.raw = none → ReqOp.reinit ∉ done)

theorem parts_marshal (u : Uri.URI) : parts u.marshal.2 = parts u := by
  unfold Uri.URI.marshal
  cases u.raw <;> rfl

theorem raw_marshal (u : Uri.URI) : u.marshal.2.raw ≠ none := by
  unfold Uri.URI.marshal
  cases h : u.raw <;> simp [Uri.URI.marshalTo', h]

theorem step_holds (done acc : List (ReqOp C)) (r : ReqMsg C) (h : Holds done acc r) (o : ReqOp C) :
    Holds (done ++ [o]) (match o with | .reinit => [] | o => acc ++ [o]) (r.step o) := by
  obtain ⟨hm, hv, hu, hb, ⟨n, hl⟩, hn, hr⟩ := h
  cases o with
  | reinit =>
    refine ⟨rfl, rfl, rfl, rfl, ⟨r.header.lines.length, ?_⟩, ?_, ?_⟩
    · simp [ReqMsg.step, ReqMsg.reinit, Header.reinit, List.map_const']
    · simp only [ReqMsg.step, ReqMsg.reinit, Header.reinit, List.length_map, hn, linesAdded,
        List.filterMap_append]
      simp [ReqOp.lineOf]
    · intro h; simp [ReqMsg.step, ReqMsg.reinit, Uri.URI.reinit] at h
  | add k v =>
    refine ⟨?_, ?_, ?_, ?_, ⟨n, ?_⟩, ?_, ?_⟩
    · rw [lastOf?_append]; simpa [ReqMsg.step, ReqOp.methodOf] using hm
    · rw [lastOf?_append]; simpa [ReqMsg.step, ReqOp.versionOf] using hv
    · rw [lastOf?_append]; simpa [ReqMsg.step, ReqOp.uriOf] using hu
    · rw [lastOf?_append]; simpa [ReqMsg.step, ReqOp.bodyOf] using hb
    · simp [ReqMsg.step, Header.add, hl, ReqOp.lineOf]
    · simp only [ReqMsg.step, Header.add, List.length_append, hn, linesAdded, List.filterMap_append]
      simp [ReqOp.lineOf]; omega
    · intro h
      have := hr (by simpa [ReqMsg.step] using h)
      simp [this]
  | setMethod m =>
    refine ⟨?_, ?_, ?_, ?_, ⟨n, ?_⟩, ?_, ?_⟩
    · rw [lastOf?_append]; simp [ReqMsg.step, ReqOp.methodOf]
    · rw [lastOf?_append]; simpa [ReqMsg.step, ReqOp.versionOf] using hv
    · rw [lastOf?_append]; simpa [ReqMsg.step, ReqOp.uriOf] using hu
    · rw [lastOf?_append]; simpa [ReqMsg.step, ReqOp.bodyOf] using hb
    · simp [ReqMsg.step, hl, ReqOp.lineOf]
    · simp only [ReqMsg.step, hn, linesAdded, List.filterMap_append]; simp [ReqOp.lineOf]
    · intro h
      have := hr (by simpa [ReqMsg.step] using h)
      simp [this]
  | setVersion m =>
    refine ⟨?_, ?_, ?_, ?_, ⟨n, ?_⟩, ?_, ?_⟩
    · rw [lastOf?_append]; simpa [ReqMsg.step, ReqOp.methodOf] using hm
    · rw [lastOf?_append]; simp [ReqMsg.step, ReqOp.versionOf]
    · rw [lastOf?_append]; simpa [ReqMsg.step, ReqOp.uriOf] using hu
    · rw [lastOf?_append]; simpa [ReqMsg.step, ReqOp.bodyOf] using hb
    · simp [ReqMsg.step, hl, ReqOp.lineOf]
    · simp only [ReqMsg.step, hn, linesAdded, List.filterMap_append]; simp [ReqOp.lineOf]
    · intro h
      have := hr (by simpa [ReqMsg.step] using h)
      simp [this]
  | setURI s a p q f =>
    refine ⟨?_, ?_, ?_, ?_, ⟨n, ?_⟩, ?_, ?_⟩
    · rw [lastOf?_append]; simpa [ReqMsg.step, ReqOp.methodOf] using hm
    · rw [lastOf?_append]; simpa [ReqMsg.step, ReqOp.versionOf] using hv
    · rw [lastOf?_append]; simp [ReqMsg.step, ReqOp.uriOf, parts, Uri.URI.set]
    · rw [lastOf?_append]; simpa [ReqMsg.step, ReqOp.bodyOf] using hb
    · simp [ReqMsg.step, hl, ReqOp.lineOf]
    · simp only [ReqMsg.step, hn, linesAdded, List.filterMap_append]; simp [ReqOp.lineOf]
    · intro h
      have := hr (by simpa [ReqMsg.step, Uri.URI.set] using h)
      simp [this]
  | setBody c =>
    refine ⟨?_, ?_, ?_, ?_, ⟨n, ?_⟩, ?_, ?_⟩
    · rw [lastOf?_append]; simpa [ReqMsg.step, ReqOp.methodOf] using hm
    · rw [lastOf?_append]; simpa [ReqMsg.step, ReqOp.versionOf] using hv
    · rw [lastOf?_append]; simpa [ReqMsg.step, ReqOp.uriOf] using hu
    · rw [lastOf?_append]; simp [ReqMsg.step, ReqOp.bodyOf]
    · simp [ReqMsg.step, hl, ReqOp.lineOf]
    · simp only [ReqMsg.step, hn, linesAdded, List.filterMap_append]; simp [ReqOp.lineOf]
    · intro h
      have := hr (by simpa [ReqMsg.step] using h)
      simp [this]
  | writeURI =>
    refine ⟨?_, ?_, ?_, ?_, ⟨n, ?_⟩, ?_, ?_⟩
    · rw [lastOf?_append]; simpa [ReqMsg.step, ReqOp.methodOf] using hm
    · rw [lastOf?_append]; simpa [ReqMsg.step, ReqOp.versionOf] using hv
    · rw [lastOf?_append]; simpa [ReqMsg.step, ReqOp.uriOf, parts_marshal] using hu
    · rw [lastOf?_append]; simpa [ReqMsg.step, ReqOp.bodyOf] using hb
    · simp [ReqMsg.step, hl, ReqOp.lineOf]
    · simp only [ReqMsg.step, hn, linesAdded, List.filterMap_append]; simp [ReqOp.lineOf]
    · intro h
      exact absurd (by simpa [ReqMsg.step] using h) (raw_marshal r.uri)
  | deinit =>
    refine ⟨?_, ?_, ?_, ?_, ⟨n, ?_⟩, ?_, ?_⟩
    · rw [lastOf?_append]; simpa [ReqMsg.step, ReqMsg.deinit, ReqOp.methodOf] using hm
    · rw [lastOf?_append]; simpa [ReqMsg.step, ReqMsg.deinit, ReqOp.versionOf] using hv
    · rw [lastOf?_append]; simpa [ReqMsg.step, ReqMsg.deinit, ReqOp.uriOf] using hu
    · rw [lastOf?_append]; simpa [ReqMsg.step, ReqMsg.deinit, ReqOp.bodyOf] using hb
    · simp [ReqMsg.step, ReqMsg.deinit, hl, ReqOp.lineOf]
    · simp only [ReqMsg.step, ReqMsg.deinit, hn, linesAdded, List.filterMap_append]; simp [ReqOp.lineOf]
    · intro h
      have := hr (by simpa [ReqMsg.step, ReqMsg.deinit] using h)
      simp [this]

theorem foldl_holds (rest done acc : List (ReqOp C)) (r : ReqMsg C) (h : Holds done acc r) :
    Holds (done ++ rest) (rest.foldl (fun acc o => match o with | .reinit => [] | o => acc ++ [o]) acc)
      (rest.foldl ReqMsg.step r) := by
  induction rest generalizing done acc r with
  | nil => simpa using h
  | cons o rest ih =>
    have := ih (done ++ [o]) _ _ (step_holds done acc r h o)
    simpa using this

theorem run_holds (ops : List (ReqOp C)) : Holds ops (sinceReset ops) (ReqMsg.run ops) := by
  have h0 : Holds ([] : List (ReqOp C)) [] (ReqMsg.init {}) := by
    refine ⟨rfl, rfl, rfl, rfl, ⟨headerInitLen, ?_⟩, ?_, ?_⟩
    · simp [ReqMsg.init, Header.init]
    · simp [ReqMsg.init, Header.init, linesAdded]
    · simp
  have := foldl_holds ops [] [] _ h0
  simpa [ReqMsg.run, sinceReset] using this

/-- C140: after any history of calls on a request — any number of resets in it — its method, version,
URI parts and body are those last set since the last reset, and every header name reads as the first
line added under it since the last reset: nothing of an earlier use can be read. -/
theorem C140_request_reads_only_its_own_use (ops : List (ReqOp C)) :
    (ReqMsg.run ops).method = lastOf? ReqOp.methodOf [] (sinceReset ops) ∧
    (ReqMsg.run ops).version = lastOf? ReqOp.versionOf [] (sinceReset ops) ∧
    parts (ReqMsg.run ops).uri = lastOf? ReqOp.uriOf ([], [], [], [], []) (sinceReset ops) ∧
    (ReqMsg.run ops).body = lastOf? ReqOp.bodyOf none (sinceReset ops) ∧
    ∀ key : Bytes, key ≠ [] →
      (ReqMsg.run ops).header.get key = firstValue ((sinceReset ops).filterMap ReqOp.lineOf) key := by
  obtain ⟨hm, hv, hu, hb, ⟨n, hl⟩, -, -⟩ := run_holds ops
  refine ⟨hm, hv, hu, hb, fun key hk => ?_⟩
  rw [get_eq, hl]
  unfold firstValue
  rw [valuesOf_append, valuesOf_blank n key hk]
  rfl

/-- C230 violated: the list of header lines of a request never shrinks. After any history it has sixteen
blank lines and one more for every line ever added, however often the request was reset: a request that
is reused keeps growing, and listing its header lists a blank line for each earlier one. -/
theorem C230_reset_keeps_lines_violated (ops : List (ReqOp C)) :
    (ReqMsg.run ops).header.lines.length = 16 + linesAdded ops ∧
    (ReqMsg.run (ops ++ [.reinit])).header.lines = List.replicate (16 + linesAdded ops) ([], []) := by
  obtain ⟨-, -, -, -, -, hn, -⟩ := run_holds ops
  refine ⟨hn, ?_⟩
  have : ReqMsg.run (ops ++ [.reinit]) = (ReqMsg.run ops).reinit := by
    simp [ReqMsg.run, ReqMsg.step]
  rw [this]
  simp only [ReqMsg.reinit, Header.reinit]
  rw [List.map_const', hn]
  rfl

theorem raw_of_reset (rest : List (ReqOp C)) (r : ReqMsg C) (hr : r.uri.raw = some [])
    : (rest.foldl ReqMsg.step r).uri.raw = some [] := by
  induction rest generalizing r with
  | nil => exact hr
  | cons o rest ih =>
    apply ih
    cases o <;> simp [ReqMsg.step, ReqMsg.reinit, ReqMsg.deinit, Uri.URI.reinit, Uri.URI.set, Uri.URI.marshal, hr]

/-- C230 violated: once a request has been reset, its URI is written as the empty text, whatever is set
on it afterwards. -/
theorem C230_reused_request_loses_its_uri_violated (before after : List (ReqOp C)) :
    (ReqMsg.run (before ++ .reinit :: after)).uri.marshal.1 = [] := by
  have h : (ReqMsg.run (before ++ .reinit :: after)).uri.raw = some [] := by
    simp only [ReqMsg.run, List.foldl_append, List.foldl_cons]
    exact raw_of_reset after _ rfl
  simp [Uri.URI.marshal, h]

/-- C140: before any reset, the first writing of the URI gives the parts set last. -/
theorem C140_first_use_writes_its_uri (ops : List (ReqOp C)) (s a p q f : Bytes)
    (hw : ReqOp.writeURI ∉ ops) (hr : ReqOp.reinit ∉ ops) :
    (ReqMsg.run (ops ++ [.setURI s a p q f])).uri.marshal.1 =
      (if s = [] then [] else s ++ bs "://") ++ a ++ (if p = [] then bs "/" else p) ++
      (if q = [] then [] else bs "?" ++ q) := by
  have hraw : ∀ (l : List (ReqOp C)) (r : ReqMsg C), ReqOp.writeURI ∉ l → ReqOp.reinit ∉ l → r.uri.raw = none →
      (l.foldl ReqMsg.step r).uri.raw = none := by
    intro l
    induction l with
    | nil => intro r _ _ h; exact h
    | cons o l ih =>
      intro r hw hr h
      simp only [List.mem_cons, not_or] at hw hr
      apply ih _ hw.2 hr.2
      cases o <;> simp_all [ReqMsg.step, ReqMsg.deinit, Uri.URI.set]
  have h := hraw ops (ReqMsg.init {}) hw hr rfl
  have h1 : bs "/" = [ch '/'] := by decide
  have h2 : bs "?" = [ch '?'] := by decide
  simp only [ReqMsg.run, List.foldl_append, List.foldl_cons, List.foldl_nil, ReqMsg.step]
  simp [Uri.URI.set, Uri.URI.marshal, h, Uri.URI.text, h1, h2]

example := C140_first_use_writes_its_uri (C := Nat) [.setMethod (bs "POST"), .setURI [] (bs "b") (bs "/x") [] [], .add (bs "Host") (bs "b")]
  (bs "http") (bs "a") (bs "/y") (bs "q=1") [] (by simp) (by simp)

/-! ## Responses -/

/-- The calls since the last reset. -/
def sinceResetRes : List (ResOp C) → List (ResOp C)
  | ops => (ops.foldl (fun acc o => match o with | .reinit => [] | o => acc ++ [o]) [])

/-- The value of a call that sets the version. -/
def ResOp.versionOf : ResOp C → Option Bytes | .setVersion v => some v | _ => none
/-- The code and phrase of a call that sets the status. -/
def ResOp.statusOf : ResOp C → Option (Bytes × Bytes) | .setStatus c p => some (c, p) | _ => none
/-- The line a call adds. -/
def ResOp.lineOf : ResOp C → Option KV | .add k v => some (k, v) | _ => none
/-- The codec a call sets. -/
def ResOp.bodyOf : ResOp C → Option (Option C) | .setBody c => some c | _ => none

/-- What the response holds for the calls `acc` since the last reset. -/
def HoldsRes (acc : List (ResOp C)) (r : ResMsg C) : Prop :=
  r.version = lastOf? ResOp.versionOf [] acc ∧
  (r.statusCode, r.reasonPhrase) = lastOf? ResOp.statusOf ([], []) acc ∧
  r.body = lastOf? ResOp.bodyOf none acc ∧
  ∃ n : Nat, r.header.lines = List.replicate n ([], []) ++ acc.filterMap ResOp.lineOf

theorem step_holdsRes (acc : List (ResOp C)) (r : ResMsg C) (h : HoldsRes acc r) (o : ResOp C) :
    HoldsRes (match o with | .reinit => [] | o => acc ++ [o]) (r.step o) := by
  obtain ⟨hv, hs, hb, n, hl⟩ := h
  cases o with
  | reinit => exact ⟨rfl, rfl, rfl, r.header.lines.length, by simp [ResMsg.step, ResMsg.reinit, Header.reinit, List.map_const']⟩
  | setVersion v =>
    refine ⟨?_, ?_, ?_, n, ?_⟩
    · rw [lastOf?_append]; simp [ResMsg.step, ResOp.versionOf]
    · rw [lastOf?_append]; simpa [ResMsg.step, ResOp.statusOf] using hs
    · rw [lastOf?_append]; simpa [ResMsg.step, ResOp.bodyOf] using hb
    · simp [ResMsg.step, hl, ResOp.lineOf]
  | setStatus c p =>
    refine ⟨?_, ?_, ?_, n, ?_⟩
    · rw [lastOf?_append]; simpa [ResMsg.step, ResOp.versionOf] using hv
    · rw [lastOf?_append]; simp [ResMsg.step, ResOp.statusOf]
    · rw [lastOf?_append]; simpa [ResMsg.step, ResOp.bodyOf] using hb
    · simp [ResMsg.step, hl, ResOp.lineOf]
  | add k v =>
    refine ⟨?_, ?_, ?_, n, ?_⟩
    · rw [lastOf?_append]; simpa [ResMsg.step, ResOp.versionOf] using hv
    · rw [lastOf?_append]; simpa [ResMsg.step, ResOp.statusOf] using hs
    · rw [lastOf?_append]; simpa [ResMsg.step, ResOp.bodyOf] using hb
    · simp [ResMsg.step, Header.add, hl, ResOp.lineOf]
  | setBody c =>
    refine ⟨?_, ?_, ?_, n, ?_⟩
    · rw [lastOf?_append]; simpa [ResMsg.step, ResOp.versionOf] using hv
    · rw [lastOf?_append]; simpa [ResMsg.step, ResOp.statusOf] using hs
    · rw [lastOf?_append]; simp [ResMsg.step, ResOp.bodyOf]
    · simp [ResMsg.step, hl, ResOp.lineOf]
  | deinit =>
    refine ⟨?_, ?_, ?_, n, ?_⟩
    · rw [lastOf?_append]; simpa [ResMsg.step, ResMsg.deinit, ResOp.versionOf] using hv
    · rw [lastOf?_append]; simpa [ResMsg.step, ResMsg.deinit, ResOp.statusOf] using hs
    · rw [lastOf?_append]; simpa [ResMsg.step, ResMsg.deinit, ResOp.bodyOf] using hb
    · simp [ResMsg.step, ResMsg.deinit, hl, ResOp.lineOf]

theorem foldl_holdsRes (rest acc : List (ResOp C)) (r : ResMsg C) (h : HoldsRes acc r) :
    HoldsRes (rest.foldl (fun acc o => match o with | .reinit => [] | o => acc ++ [o]) acc)
      (rest.foldl ResMsg.step r) := by
  induction rest generalizing acc r with
  | nil => simpa using h
  | cons o rest ih => exact ih _ _ (step_holdsRes acc r h o)

/-- C140: after any history of calls on a response, its version, status code, reason phrase and body are
those last set since the last reset and every header name reads as the first line added under it since
the last reset. -/
theorem C140_response_reads_only_its_own_use (ops : List (ResOp C)) :
    (ResMsg.run ops).version = lastOf? ResOp.versionOf [] (sinceResetRes ops) ∧
    ((ResMsg.run ops).statusCode, (ResMsg.run ops).reasonPhrase) =
      lastOf? ResOp.statusOf ([], []) (sinceResetRes ops) ∧
    (ResMsg.run ops).body = lastOf? ResOp.bodyOf none (sinceResetRes ops) ∧
    ∀ key : Bytes, key ≠ [] →
      (ResMsg.run ops).header.get key = firstValue ((sinceResetRes ops).filterMap ResOp.lineOf) key := by
  have h0 : HoldsRes ([] : List (ResOp C)) (ResMsg.init {}) :=
    ⟨rfl, rfl, rfl, headerInitLen, by simp [ResMsg.init, Header.init]⟩
  obtain ⟨hv, hs, hb, n, hl⟩ := foldl_holdsRes ops [] _ h0
  refine ⟨hv, hs, hb, fun key hk => ?_⟩
  have hl : (ResMsg.run ops).header.lines = _ := hl
  rw [get_eq, hl]
  unfold firstValue
  rw [valuesOf_append, valuesOf_blank n key hk]
  rfl

/-- A request used twice: what the second use reads, and what it does not. -/
example : let ops : List (ReqOp Nat) := [.setMethod (bs "POST"), .setURI [] (bs "a") (bs "/x") [] [],
      .add (bs "Cookie") (bs "secret"), .setBody (some 7), .reinit, .setMethod (bs "GET"),
      .setURI [] (bs "b") (bs "/y") [] [], .add (bs "Host") (bs "b")]
    (ReqMsg.run ops).method = bs "GET" ∧ (ReqMsg.run ops).body = none ∧
    (ReqMsg.run ops).header.get (bs "Cookie") = [] ∧ (ReqMsg.run ops).header.get (bs "Host") = bs "b" ∧
    (ReqMsg.run ops).uri.path = bs "/y" ∧ (ReqMsg.run ops).uri.marshal.1 = [] ∧
    (ReqMsg.run ops).header.lines.length = 18 := by decide +kernel

/-! ## Bodies -/

variable {S E : Type}

/-- C140: a body whose codec is set passes every call on to it unchanged. -/
theorem C140_body_passes_on (c : CodecCalls S E) (x : S) (data : Bytes) :
    bodyDecode (some c) x = c.decode x ∧ bodyEncode (some c) x = c.encode x ∧
    bodyMarshal (some c) = c.marshal ∧ bodyMarshalTo (some c) data = c.marshalTo data ∧
    bodyUnmarshal (some c) data = c.unmarshal data ∧ bodyUnmarshalFrom (some c) data = c.unmarshalFrom data :=
  ⟨rfl, rfl, rfl, rfl, rfl, rfl⟩

/-- C230: a body without codec reads and writes nothing and reports no error: what was written so far is
returned as it was.
Missing: objects that are used again, and that such a body loses nothing (refuted:
`C230_reset_keeps_lines_violated`, `C230_reused_request_loses_its_uri_violated`,
`C230_no_body_drops_data_violated`). -/
theorem C230_no_body_is_empty_partial (x : S) (data : Bytes) :
    bodyDecode (E := E) none x = (0, none) ∧ bodyEncode (E := E) none x = (0, none) ∧
    bodyMarshal (S := S) (E := E) none = ([], none) ∧ bodyMarshalTo (S := S) (E := E) none data = (data, none) ∧
    bodyUnmarshal (S := S) (E := E) none data = (0, none) := ⟨rfl, rfl, rfl, rfl, rfl⟩

/-- C230 violated: a body without codec, given data to read from, returns no remaining data although it
took none: every byte given to it is lost without an error. -/
theorem C230_no_body_drops_data_violated (data : Bytes) (h : data ≠ []) :
    (bodyUnmarshalFrom (S := S) (E := E) none data).1 ≠ data ∧
    bodyUnmarshalFrom (S := S) (E := E) none data = ([], none) :=
  ⟨fun e => h (by simpa [bodyUnmarshalFrom] using e.symm), rfl⟩

example := C230_no_body_drops_data_violated (S := Nat) (E := Nat) (bs "abc") (by decide)

end Memar.Http

import Verif.Codec.Model

/-!
# C173: a codec can be written into any other codec
-/

namespace Memar.Codec
open Memar

/-! ## Specification -/

/-- The codec inside all the bodies around it; an empty body has none. -/
def inside : Codec → Option (Leaf × Option Bytes)
  | .leaf k d => some (k, d)
  | .empty => none
  | .body c => inside c

/-- How many bodies are around it. -/
def depth : Codec → Nat
  | .leaf _ _ => 0
  | .empty => 0
  | .body c => depth c + 1

/-- Whatever the number of nested calls, it does not return. -/
def NeverReturns (call : Nat → Outcome) : Prop := ∀ n, call n = .running

/-- It returns, with this outcome. -/
def Returns (call : Nat → Outcome) (o : Outcome) : Prop := o ≠ .running ∧ ∃ n, ∀ m, n ≤ m → call m = o

/-! ## Calls through bodies -/

theorem marshal_inside (c : Codec) : marshal c = match inside c with | some (_, d) => d | none => some [] := by
  induction c with
  | leaf k d => rfl
  | empty => rfl
  | body c ih => rw [marshal, inside, ih]

theorem unmarshal_inside (c : Codec) (b : Bytes) :
    unmarshal c b = match inside c with | some (k, d) => unmarshal (.leaf k d) b | none => .nothing := by
  induction c with
  | leaf k d => rfl
  | empty => rfl
  | body c ih => rw [unmarshal, inside, ih]

theorem encode_leaf (n : Nat) (k : Leaf) (d : Option Bytes) (dst : Codec) (h : k ≠ .uri) (h' : k ≠ .path) :
    encode (n + 1) (.leaf k d) dst = decode n dst (.leaf k d) := by
  cases k <;> first | rfl | contradiction

/-- Encoding through bodies is encoding of what is inside, later. -/
theorem encode_depth (src dst : Codec) (n : Nat) :
    encode (n + depth src + 1) src dst =
      match inside src with | some (k, d) => encode (n + 1) (.leaf k d) dst | none => .nothing := by
  induction src with
  | leaf k d => rfl
  | empty => rfl
  | body c ih =>
    show encode ((n + depth c + 1) + 1) (.body c) dst = _
    rw [encode, ih]
    rfl

theorem decode_depth (src dst : Codec) (n : Nat) :
    decode (n + depth dst + 1) dst src =
      match inside dst with | some (k, d) => decode (n + 1) (.leaf k d) src | none => .nothing := by
  induction dst with
  | leaf k d => rfl
  | empty => rfl
  | body c ih =>
    show decode ((n + depth c + 1) + 1) (.body c) src = _
    rw [decode, ih]
    rfl

theorem encode_short (src dst : Codec) (n : Nat) (h : n ≤ depth src) (hi : inside src ≠ none ∨ n < depth src + 1) :
    encode n src dst = .running := by
  induction src generalizing n with
  | leaf k d => have : n = 0 := by simpa [depth] using h
                subst this; rfl
  | empty => have : n = 0 := by simpa [depth] using h
             subst this; rfl
  | body c ih =>
    cases n with
    | zero => rfl
    | succ m =>
      rw [encode]
      exact ih m (by simp only [depth] at h; omega) (.inr (by simp only [depth] at h; omega))

theorem decode_short (src dst : Codec) (n : Nat) (h : n ≤ depth dst) : decode n dst src = .running := by
  induction dst generalizing n with
  | leaf k d => have : n = 0 := by simpa [depth] using h
                subst this; rfl
  | empty => have : n = 0 := by simpa [depth] using h
             subst this; rfl
  | body c ih =>
    cases n with
    | zero => rfl
    | succ m =>
      rw [decode]
      exact ih m (by simp only [depth] at h; omega)

/-- A codec that writes itself by asking the destination to read it. -/
def Asks (k : Leaf) : Prop := k = .socket ∨ k = .json ∨ k = .readOnly ∨ k = .gunzip

theorem asks_ne {k : Leaf} (h : Asks k) : k ≠ .uri ∧ k ≠ .path := by
  rcases h with rfl | rfl | rfl | rfl <;> decide

/-- Between what asks and a socket the two calls ask each other for ever. -/
theorem ping_pong (k : Leaf) (h : Asks k) (d e : Option Bytes) (n : Nat) :
    encode n (.leaf k d) (.leaf .socket e) = .running ∧ decode n (.leaf .socket e) (.leaf k d) = .running := by
  induction n with
  | zero => exact ⟨rfl, rfl⟩
  | succ n ih =>
    refine ⟨?_, ?_⟩
    · rw [encode_leaf n k d _ (asks_ne h).1 (asks_ne h).2]; exact ih.2
    · rw [decode]; exact ih.1

/-- Asking a body around a socket. -/
theorem ping_pong_body (k : Leaf) (h : Asks k) (d e : Option Bytes) (dst : Codec) (hd : inside dst = some (.socket, e)) (n : Nat) :
    decode n dst (.leaf k d) = .running := by
  by_cases hn : n ≤ depth dst
  · exact decode_short _ _ _ hn
  · obtain ⟨m, rfl⟩ : ∃ m, n = m + depth dst + 1 := ⟨n - depth dst - 1, by omega⟩
    rw [decode_depth, hd]
    exact (ping_pong k h d e (m + 1)).2

/-! ## C173 -/

/-- **C173** violated for every socket as the destination: whatever is to be sent — another socket, JSON, compressed or
decompressed contents, or a URI that is not empty, alone or as the body of a message, in however many bodies — the call
never returns.  The two codecs ask each other to do it, until the stack is used up; and a URI is handed to a loop that
sends nothing of it, for ever. -/
theorem C173_into_socket_violated (src dst : Codec) (k : Leaf) (d e : Option Bytes) (hs : inside src = some (k, d))
    (hd : inside dst = some (.socket, e)) (hk : Asks k ∨ (k = .uri ∧ ∃ b, d = some b ∧ b ≠ [])) :
    NeverReturns (fun n => encode n src dst) ∧ (Asks k → NeverReturns (fun n => decode n dst src)) := by
  have henc : ∀ n, encode n src dst = .running := by
    intro n
    by_cases hn : n ≤ depth src
    · exact encode_short _ _ _ hn (.inr (by omega))
    · obtain ⟨m, rfl⟩ : ∃ m, n = m + depth src + 1 := ⟨n - depth src - 1, by omega⟩
      rw [encode_depth, hs]
      dsimp only
      rcases hk with hk | ⟨rfl, b, rfl, hb⟩
      · rw [encode_leaf m k d _ (asks_ne hk).1 (asks_ne hk).2]
        exact ping_pong_body k hk d e dst hd m
      · rw [encode]
        rw [unmarshal_inside, hd]
        simp [unmarshal, hb]
  refine ⟨henc, fun _ n => ?_⟩
  by_cases hn : n ≤ depth dst
  · exact decode_short _ _ _ hn
  · obtain ⟨m, rfl⟩ : ∃ m, n = m + depth dst + 1 := ⟨n - depth dst - 1, by omega⟩
    show decode (m + depth dst + 1) dst src = _
    rw [decode_depth, hd]
    dsimp only
    rw [decode]
    -- the socket asks the source to write itself into it
    by_cases hm : m ≤ depth src
    · exact encode_short _ _ _ hm (.inr (by omega))
    · obtain ⟨j, rfl⟩ : ∃ j, m = j + depth src + 1 := ⟨m - depth src - 1, by omega⟩
      rw [encode_depth, hs]
      dsimp only
      rename_i hk'
      rw [encode_leaf j k d _ (asks_ne hk').1 (asks_ne hk').2]
      exact ping_pong_body k hk' d e _ rfl j

example : encode 1000 (.body (.leaf .json (some [1, 2]))) (.leaf .socket (some [])) = .running := by decide +kernel
example : inside (.body (.leaf .json (some [1, 2]))) = some (.json, some [1, 2]) ∧ Asks .json := ⟨rfl, .inr (.inl rfl)⟩

theorem asks_table (src dst : Codec) (k q : Leaf) (d e : Option Bytes) (hs : inside src = some (k, d)) (hk : Asks k)
    (hd : inside dst = some (q, e)) (o : Outcome) (ho : o ≠ .running)
    (h : ∀ n, decode (n + 1) (.leaf q e) (.leaf k d) = o) :
    Returns (fun n => encode n src dst) o := by
  refine ⟨ho, depth src + depth dst + 2, fun m hm => ?_⟩
  obtain ⟨j, rfl⟩ : ∃ j, m = (j + depth dst + 1) + depth src + 1 := ⟨m - depth dst - depth src - 2, by omega⟩
  show encode ((j + depth dst + 1) + depth src + 1) src dst = _
  rw [encode_depth, hs]
  dsimp only
  rw [encode_leaf _ k d _ (asks_ne hk).1 (asks_ne hk).2, decode_depth, hd]
  exact h j

/-- **C173** (partial: only into a JSON codec): a socket, JSON, compressed or decompressed contents, in however many
bodies, written into a JSON codec, in however many bodies, hand it exactly the contents; an error of the source is
reported.
Missing: other destinations (refuted: `C173_into_socket_violated`, `C173_lost_violated`). -/
theorem C173_into_json_partial (src dst : Codec) (k : Leaf) (d e : Option Bytes) (hs : inside src = some (k, d)) (hk : Asks k)
    (hd : inside dst = some (.json, e)) :
    Returns (fun n => encode n src dst) (match d with | some b => .given b | none => .failed) := by
  refine asks_table src dst k .json d e hs hk hd _ ?_ ?_
  · cases d <;> simp
  · intro n
    rw [decode]
    cases d <;> rfl

example : encode 3 (.body (.leaf .gunzip (some [1, 2]))) (.leaf .json none) = .given [1, 2] := by decide +kernel

/-- **C173** (partial: not into a socket, and not the empty text): the text of a URI is handed to JSON, to a URI, to a path
and to a gzip decompressor, in however many bodies.
Missing: sockets and the empty text (refuted: `C173_into_socket_violated`, `C173_empty_uri_violated`). -/
theorem C173_from_uri_partial (src dst : Codec) (q : Leaf) (b : Bytes) (e : Option Bytes) (hs : inside src = some (.uri, some b))
    (hb : b ≠ []) (hd : inside dst = some (q, e)) (hq : q ≠ .socket) (hq' : q ≠ .readOnly) :
    Returns (fun n => encode n src dst) (.given b) := by
  refine ⟨by simp, depth src + 1, fun m hm => ?_⟩
  obtain ⟨j, rfl⟩ : ∃ j, m = j + depth src + 1 := ⟨m - depth src - 1, by omega⟩
  show encode (j + depth src + 1) src dst = _
  rw [encode_depth, hs]
  dsimp only
  rw [encode]
  rw [unmarshal_inside, hd]
  dsimp only [Option.getD]
  cases q <;> first | contradiction | simp [unmarshal, hb]

example : encode 2 (.leaf .uri (some (bs "/a"))) (.body (.leaf .uri none)) = .given (bs "/a") := by decide +kernel

/-- **C173**: a codec that cannot be changed refuses whatever is written into it. -/
theorem C173_refused (src dst : Codec) (k : Leaf) (d e : Option Bytes) (hs : inside src = some (k, d)) (hk : Asks k ∨ k = .uri)
    (hd : inside dst = some (.readOnly, e)) : Returns (fun n => encode n src dst) .refused := by
  rcases hk with hk | rfl
  · exact asks_table src dst k .readOnly d e hs hk hd _ (by simp) fun n => rfl
  · refine ⟨by simp, depth src + 1, fun m hm => ?_⟩
    obtain ⟨j, rfl⟩ : ∃ j, m = j + depth src + 1 := ⟨m - depth src - 1, by omega⟩
    show encode (j + depth src + 1) src dst = _
    rw [encode_depth, hs]
    dsimp only
    rw [encode]
    rw [unmarshal_inside, hd]
    rfl

example : encode 2 (.leaf .json (some [1])) (.leaf .readOnly none) = .refused := by decide +kernel

/-- **C173** violated for a URI and a path as the destination, and for a path as the source: the call returns without an
error and nothing is handed over, whatever the source holds. -/
theorem C173_lost_violated (src dst : Codec) (k q : Leaf) (d e : Option Bytes) (hs : inside src = some (k, d))
    (hd : inside dst = some (q, e)) (h : (Asks k ∧ (q = .uri ∨ q = .path)) ∨ k = .path) :
    Returns (fun n => encode n src dst) .nothing := by
  rcases h with ⟨hk, hq⟩ | rfl
  · refine asks_table src dst k q d e hs hk hd _ (by simp) fun n => ?_
    rcases hq with rfl | rfl <;> rfl
  · refine ⟨by simp, depth src + 1, fun m hm => ?_⟩
    obtain ⟨j, rfl⟩ : ∃ j, m = j + depth src + 1 := ⟨m - depth src - 1, by omega⟩
    show encode (j + depth src + 1) src dst = _
    rw [encode_depth, hs]
    rfl

example : encode 2 (.leaf .json (some (bs "{}"))) (.leaf .uri none) = .nothing := by decide +kernel

/-- **C173** violated for a gzip decompressor: a URI can be handed to it, but everything else is refused, although it takes
bytes. -/
theorem C173_gunzip_violated (src dst : Codec) (k : Leaf) (b : Bytes) (e : Option Bytes) (hs : inside src = some (k, some b))
    (hk : Asks k) (hd : inside dst = some (.gunzip, e)) :
    Returns (fun n => encode n src dst) .refused ∧ unmarshal dst b = .given b := by
  refine ⟨asks_table src dst k .gunzip (some b) e hs hk hd _ (by simp) fun n => rfl, ?_⟩
  rw [unmarshal_inside, hd]
  rfl

example : encode 2 (.leaf .readOnly (some [1])) (.leaf .gunzip none) = .refused := by decide +kernel

/-- **C173** (partial: for messages without a body): an empty body writes nothing into any codec and reads nothing from
any, without an error.
Missing: bodies with contents, for which see the other theorems of C173. -/
theorem C173_empty_partial (src dst : Codec) (other : Codec) (hs : inside src = none) (hd : inside dst = none) :
    Returns (fun n => encode n src other) .nothing ∧ Returns (fun n => decode n dst other) .nothing := by
  refine ⟨⟨by simp, depth src + 1, fun m hm => ?_⟩, ⟨by simp, depth dst + 1, fun m hm => ?_⟩⟩
  · obtain ⟨j, rfl⟩ : ∃ j, m = j + depth src + 1 := ⟨m - depth src - 1, by omega⟩
    show encode (j + depth src + 1) src other = _
    rw [encode_depth, hs]
  · obtain ⟨j, rfl⟩ : ∃ j, m = j + depth dst + 1 := ⟨m - depth dst - 1, by omega⟩
    show decode (j + depth dst + 1) dst other = _
    rw [decode_depth, hd]

example : inside (.body .empty) = none ∧ encode 2 (.body .empty) (.leaf .socket none) = .nothing := by decide +kernel

/-- **C173** violated for the empty text of a URI written into another URI: it panics. -/
theorem C173_empty_uri_violated (src dst : Codec) (e : Option Bytes) (hs : inside src = some (.uri, some []))
    (hd : inside dst = some (.uri, e)) : Returns (fun n => encode n src dst) .panic := by
  refine ⟨by simp, depth src + 1, fun m hm => ?_⟩
  obtain ⟨j, rfl⟩ : ∃ j, m = j + depth src + 1 := ⟨m - depth src - 1, by omega⟩
  show encode (j + depth src + 1) src dst = _
  rw [encode_depth, hs]
  dsimp only
  rw [encode]
  rw [unmarshal_inside, hd]
  rfl

example : encode 1 (.leaf .uri (some [])) (.leaf .uri none) = .panic := by decide +kernel

end Memar.Codec

import Verif.Http.Typed
import Verif.Http.HeaderProps
import Verif.Http.CookieProps

/-!
# C159: typed lines of a header
-/

namespace Memar.Http
open Memar Spec Decimal

theorem get_add (h : Header) (k k' v : Bytes) :
    (h.add k v).get k' = if k = k' ∧ valuesOf h.lines k' = [] then v else h.get k' := by
  rw [get_eq, get_eq, firstValue, firstValue, Header.add, valuesOf_append]
  by_cases hk : k = k'
  · subst hk
    cases hv : valuesOf h.lines k with
    | nil => simp [valuesOf]
    | cons a r => simp
  · rw [if_neg (fun x => hk x.1)]
    simp [valuesOf, hk]

/-- The four kinds of lines whose text is written and read as it is: (name, writer, reader). -/
def textLines : List (Bytes × (Header → Bytes → Header) × (Header → Bytes)) :=
  [(bs "Transfer-Encoding", Header.addTransferEncoding, Header.transferEncoding),
   (bs "Content-Encoding", Header.addContentEncoding, Header.contentEncoding),
   (bs "Cookie", Header.addCookies, Header.cookies)]

/-- **C159**: a transfer coding, a content coding or a cookie text added to a header that has no line of that name is what
the header then answers; a header that already has such a line goes on answering its first line; the other kinds and
every other name answer as before. -/
theorem C159_text_lines (h : Header) (l : Bytes × (Header → Bytes → Header) × (Header → Bytes)) (hl : l ∈ textLines)
    (v : Bytes) :
    ((∀ p ∈ h.lines, p.1 ≠ l.1) → l.2.2 (l.2.1 h v) = v) ∧
    ((∃ p ∈ h.lines, p.1 = l.1) → l.2.2 (l.2.1 h v) = l.2.2 h) ∧
    (∀ k, k ≠ l.1 → (l.2.1 h v).get k = h.get k) ∧
    (∀ l' ∈ textLines, l'.1 ≠ l.1 → l'.2.2 (l.2.1 h v) = l'.2.2 h) ∧
    (l.2.1 h v).lines = h.lines ++ [(l.1, v)] := by
  have hv1 : ∀ k, (∀ p ∈ h.lines, p.1 ≠ k) → valuesOf h.lines k = [] := by
    intro k hk
    simp only [valuesOf, List.filterMap_eq_nil_iff]
    intro p hp; rw [if_neg (hk p hp)]
  have hv2 : ∀ k, (∃ p ∈ h.lines, p.1 = k) → valuesOf h.lines k ≠ [] := by
    rintro k ⟨p, hp, e⟩ hn
    simp only [valuesOf, List.filterMap_eq_nil_iff] at hn
    have := hn p hp
    rw [if_pos e] at this; cases this
  have key : l.2.1 h v = h.add l.1 v ∧ ∀ x : Header, l.2.2 x = x.get l.1 := by
    simp only [textLines, List.mem_cons, List.not_mem_nil, or_false] at hl
    rcases hl with rfl | rfl | rfl <;> exact ⟨rfl, fun _ => rfl⟩
  have key' : ∀ l' ∈ textLines, ∀ x : Header, l'.2.2 x = x.get l'.1 := by
    intro l' hl' x
    simp only [textLines, List.mem_cons, List.not_mem_nil, or_false] at hl'
    rcases hl' with rfl | rfl | rfl <;> rfl
  rw [key.1]
  refine ⟨fun hk => ?_, fun hk => ?_, fun k hk => ?_, fun l' hl' hk => ?_, rfl⟩
  · rw [key.2, get_add, if_pos ⟨rfl, hv1 _ hk⟩]
  · rw [key.2, key.2, get_add, if_neg (fun x => hv2 _ hk x.2)]
  · rw [get_add, if_neg (fun x => hk x.1.symm)]
  · rw [key' l' hl', key' l' hl', get_add, if_neg (fun x => hk x.1.symm)]

/-- Case: a header with a cookie line, given a transfer coding. -/
example : let h : Header := ⟨[(bs "Cookie", bs "a=b")]⟩
    (h.addTransferEncoding (bs "chunked")).transferEncoding = bs "chunked" ∧
    (h.addCookies (bs "c=d")).cookies = bs "a=b" := by decide +kernel

/-- **C159**: the length of the body of a request or of a response, added to a header without a length, is read back; and a
zero length is read as zero. -/
theorem C159_body_length (h : Header) (habs : ∀ p ∈ h.lines, p.1 ≠ bs "Content-Length") (n : Nat) (hn : n < 2 ^ 63) :
    (h.addBodyLength n).contentLength.toNat = n ∧ h.addZeroContentLength.contentLength = 0 ∧
    h.addZeroContentLength = h.addBodyLength 0 := by
  have e : ∀ m : Nat, m < 2 ^ 63 → h.addBodyLength m = h.addContentLength (BitVec.ofNat 64 m) := by
    intro m hm
    unfold Header.addBodyLength Header.addContentLength
    rw [show BitVec.ofInt 64 (m : Int) = BitVec.ofNat 64 m from BitVec.ofInt_natCast ..]
  have z : h.addZeroContentLength = h.addBodyLength 0 := by
    unfold Header.addZeroContentLength Header.addBodyLength
    rw [show bs "0" = decDigits (BitVec.ofInt 64 0).toNat by decide +kernel]
  refine ⟨?_, ?_, z⟩
  · rw [e n hn, C58_content_length_round_trip h habs, BitVec.toNat_ofNat, Nat.mod_eq_of_lt (by omega)]
  · rw [z, show (0 : Int) = ((0 : Nat) : Int) from rfl, e 0 (by decide), C58_content_length_round_trip h habs]; rfl

/-- Case: a body of 5 bytes. -/
example : ((⟨[]⟩ : Header).addBodyLength 5).contentLength = 5#64 := by decide +kernel

/-- **C241** violated for messages with two lengths: a second length is added beside the first one, the message then states
two different lengths, and the reader answers the first without an error. -/
theorem C241_two_lengths_violated (h : Header) (habs : ∀ p ∈ h.lines, p.1 ≠ bs "Content-Length") (n m : U64) :
    ((h.addContentLength n).addContentLength m).contentLength = n ∧
    valuesOf ((h.addContentLength n).addContentLength m).lines (bs "Content-Length") =
      [decDigits n.toNat, decDigits m.toNat] := by
  have hv : valuesOf h.lines (bs "Content-Length") = [] := by
    simp only [valuesOf, List.filterMap_eq_nil_iff]
    intro p hp; rw [if_neg (habs p hp)]
  have h1 : valuesOf (h.addContentLength n).lines (bs "Content-Length") = [decDigits n.toNat] := by
    rw [Header.addContentLength, Header.add, valuesOf_append, hv]; simp [valuesOf]
  refine ⟨?_, ?_⟩
  · rw [Header.contentLength, Header.addContentLength, get_add, if_neg (by rw [h1]; simp)]
    exact C58_content_length_round_trip h habs n
  · rw [Header.addContentLength, Header.add, valuesOf_append, h1]; simp [valuesOf]

example := C241_two_lengths_violated ⟨[(bs "Host", bs "a.b")]⟩ (by decide +kernel) 5#64 70#64

/-- **C241** violated for texts that are no numbers: every Content-Length text with a byte that is no digit is accepted. It reads as zero, the same as an
empty body; and when the digits before that byte are too many for 64 bits it reads as the largest number. -/
theorem C241_bad_length_violated (h : Header) (habs : ∀ p ∈ h.lines, p.1 ≠ bs "Content-Length") (digits : Bytes) (ha : AllDigits digits) (c : Byte)
    (hd : ¬ IsDigit c) (rest : Bytes) :
    (h.add (bs "Content-Length") (digits ++ c :: rest)).contentLength = if decVal digits < 18446744073709551616 then 0 else BitVec.allOnes 64 := by
  have hv : valuesOf h.lines (bs "Content-Length") = [] := by
    simp only [valuesOf, List.filterMap_eq_nil_iff]
    intro p hp; rw [if_neg (habs p hp)]
  rw [Header.contentLength, get_add, if_pos ⟨rfl, hv⟩, parseUint64_bad digits ha c hd rest]

example := C241_bad_length_violated ⟨[(bs "Host", bs "a.b")]⟩ (by decide +kernel) (bs "5") (by decide) (ch 'x') (by decide) (bs "7")

/-- **C241** violated for numbers of more than 64 bits: every such Content-Length is accepted and reads as the largest number. -/
theorem C241_large_length_violated (h : Header) (habs : ∀ p ∈ h.lines, p.1 ≠ bs "Content-Length") (digits : Bytes) (ha : AllDigits digits)
    (hl : 18446744073709551616 ≤ decVal digits) : (h.add (bs "Content-Length") digits).contentLength = BitVec.allOnes 64 := by
  have hv : valuesOf h.lines (bs "Content-Length") = [] := by
    simp only [valuesOf, List.filterMap_eq_nil_iff]
    intro p hp; rw [if_neg (habs p hp)]
  have hne : digits ≠ [] := by rintro rfl; simp [decVal, decFrom] at hl
  rw [Header.contentLength, get_add, if_pos ⟨rfl, hv⟩, parseUint64_digits digits ha hne, if_neg (by omega)]

example := C241_large_length_violated ⟨[(bs "Host", bs "a.b")]⟩ (by decide +kernel) (bs "18446744073709551616") (by decide +kernel) (by decide +kernel)

/-- **C159**: the content type read from a header without one is that of the text added. -/
theorem C159_content_type (h : Header) (habs : ∀ p ∈ h.lines, p.1 ≠ bs "Content-Type") (ct : Bytes) :
    (h.addContentType ct).contentType = contentTypeFromString ct := by
  have hv : valuesOf h.lines (bs "Content-Type") = [] := by
    simp only [valuesOf, List.filterMap_eq_nil_iff]
    intro p hp; rw [if_neg (habs p hp)]
  rw [Header.contentType, Header.addContentType, get_add, if_pos ⟨rfl, hv⟩]

example := C159_content_type ⟨[(bs "Host", bs "a.b")]⟩ (by decide +kernel) (bs "text/html;charset=utf-8")

/-- **C241**: the cookies of a text added to a header without cookies, walked through the header: all but the last come back in order
(`C53` tells why the last one is lost).
Missing: the last cookie, a single coding, and bad or repeated lengths and times (refuted:
`C241_two_lengths_violated`, `C241_bad_length_violated`, `C241_bad_expire_violated`). -/
theorem C241_cookies_partial (h : Header) (habs : ∀ p ∈ h.lines, p.1 ≠ bs "Cookie") (cs : List Cookie)
    (hc : ∀ c ∈ cs, Cookie.Plain c) (n : Nat) (hn : cs.length ≤ n + 1) :
    cookiesLoop (n + 1) (h.addCookies (cookiesText cs)).cookies = some cs.dropLast := by
  have e : (h.addCookies (cookiesText cs)).cookies = cookiesText cs :=
    (C159_text_lines h (bs "Cookie", Header.addCookies, Header.cookies) (by simp [textLines]) _).1 habs
  rw [e]
  exact C249_walk_reports_all_but_last_partial cs hc n hn

example := C241_cookies_partial ⟨[(bs "Host", bs "a.b")]⟩ (by decide +kernel) [⟨bs "a", bs "1"⟩, ⟨bs "b", bs "x=y"⟩]
  (by unfold Cookie.Plain; decide +kernel) 1 (by decide)

/-- **C241**: the coding applied last is found through the header when the list has a comma that is not its first byte (`C56` tells
what goes wrong otherwise).
Missing: the last cookie, a single coding, and bad or repeated lengths and times (refuted:
`C241_two_lengths_violated`, `C241_bad_length_violated`, `C241_bad_expire_violated`). -/
theorem C241_last_coding_partial (h : Header) (a c : Bytes) (ha : a ≠ []) (hc : ch ',' ∉ c) :
    ((∀ p ∈ h.lines, p.1 ≠ bs "Content-Encoding") →
      ∃ left, codingsLast (h.addContentEncoding (a ++ ch ',' :: c)).contentEncoding = some (c, true, left)) ∧
    ((∀ p ∈ h.lines, p.1 ≠ bs "Transfer-Encoding") →
      ∃ left, codingsLast (h.addTransferEncoding (a ++ ch ',' :: c)).transferEncoding = some (c, true, left)) := by
  refine ⟨fun hk => ?_, fun hk => ?_⟩
  · have e : (h.addContentEncoding (a ++ ch ',' :: c)).contentEncoding = a ++ ch ',' :: c :=
      (C159_text_lines h (bs "Content-Encoding", Header.addContentEncoding, Header.contentEncoding)
        (by simp [textLines]) _).1 hk
    rw [e]; exact C56_last_coding_partial a c ha hc
  · have e : (h.addTransferEncoding (a ++ ch ',' :: c)).transferEncoding = a ++ ch ',' :: c :=
      (C159_text_lines h (bs "Transfer-Encoding", Header.addTransferEncoding, Header.transferEncoding)
        (by simp [textLines]) _).1 hk
    rw [e]; exact C56_last_coding_partial a c ha hc

example := C241_last_coding_partial ⟨[(bs "Host", bs "a.b")]⟩ (bs "gzip") (bs "br") (by decide) (by decide)
example : (∀ p ∈ (⟨[(bs "Host", bs "a.b")]⟩ : Header).lines, p.1 ≠ bs "Content-Encoding") ∧
    ∀ p ∈ (⟨[(bs "Host", bs "a.b")]⟩ : Header).lines, p.1 ≠ bs "Transfer-Encoding" := by decide +kernel

/-! ## the time a cookie expires -/

/-- **C159**: the time of expiry is the one the first of the two layouts reads, in that order, and the zero time when neither
reads the text; only the text of the expiry is looked at. -/
theorem C159_get_expire {T : Type} (zero : T) (rfc1123 dashed : Bytes → Option T) (sc : SetCookie) :
    (∀ t, rfc1123 sc.expires = some t → sc.getExpire zero rfc1123 dashed = t) ∧
    (∀ t, rfc1123 sc.expires = none → dashed sc.expires = some t → sc.getExpire zero rfc1123 dashed = t) ∧
    (rfc1123 sc.expires = none → dashed sc.expires = none → sc.getExpire zero rfc1123 dashed = zero) := by
  unfold SetCookie.getExpire
  refine ⟨fun t h => by rw [h], fun t h h2 => by rw [h]; simp only; rw [h2], fun h h2 => by rw [h]; simp only; rw [h2]⟩

/-- **C159**: a time of expiry that was set is read back, to the second, when the layout reads the texts it writes; no other field of
the cookie changes. -/
theorem C159_set_expire {T : Type} (zero : T) (rfc1123 dashed : Bytes → Option T) (utc : T → T) (format : T → Bytes)
    (toSecond : T → T) (t : T) (hstd : rfc1123 (format (utc t)) = some (toSecond (utc t))) (sc : SetCookie) :
    (sc.setExpire utc format t).getExpire zero rfc1123 dashed = toSecond (utc t) ∧
    { (sc.setExpire utc format t) with expires := sc.expires } = sc := by
  refine ⟨(C159_get_expire zero rfc1123 dashed _).1 _ hstd, rfl⟩

/-- Case: times as numbers of milliseconds, written as their seconds; 1500 ms is read back as 1000 ms. -/
example : let rd : Bytes → Option Nat := fun s => if AllDigits s ∧ s ≠ [] then some (decVal s * 1000) else none
    let wr : Nat → Bytes := fun t => decDigits (t / 1000)
    (SetCookie.setExpire id wr {} 1500).getExpire 0 rd (fun _ => none) = 1000 ∧
    rd (wr (id 1500)) = some (1500 / 1000 * 1000) := by decide +kernel

/-- **C241** violated for damaged times of expiry: a text neither layout reads is answered by the zero time, so every such cookie looks
as if it had expired, and no error tells it from a cookie that expires at the zero time. -/
theorem C241_bad_expire_violated {T : Type} (zero : T) (rfc1123 dashed : Bytes → Option T) (bad zeroText : Bytes)
    (h1 : rfc1123 bad = none) (h2 : dashed bad = none) (h3 : rfc1123 zeroText = some zero) (sc : SetCookie) :
    SetCookie.getExpire zero rfc1123 dashed { sc with expires := bad } =
    SetCookie.getExpire zero rfc1123 dashed { sc with expires := zeroText } := by
  rw [(C159_get_expire zero rfc1123 dashed { sc with expires := bad }).2.2 h1 h2,
    (C159_get_expire zero rfc1123 dashed { sc with expires := zeroText }).1 zero h3]

example := C241_bad_expire_violated 0 (fun b => if b = bs "zero" then some 0 else none) (fun _ => none) (bs "soon") (bs "zero")
  (by decide +kernel) rfl (by decide +kernel) { name := bs "a", value := bs "b" }

end Memar.Http

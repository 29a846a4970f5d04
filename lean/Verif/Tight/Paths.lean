import Verif.Chapar.Props
import Verif.Uri.QueryProps
import Verif.User.Props
import Verif.Json.StreamProps
import Verif.Net.FrameFieldsProps
import Verif.Net.GpProcess
import Verif.Net.Extension

/-!
# Setting, reading and writing the paths of Chapar; kinds of users; queries read by `Init`
-/

namespace Memar.Chapar
open Memar

theorem ofNat8_small (n : Nat) (h : n ≤ 255) : (BitVec.ofNat 8 n).toNat = n := by
  rw [BitVec.toNat_ofNat]; exact Nat.mod_eq_of_lt (by omega)

theorem goCopy_length' (d s : Bytes) : (goCopy d s).length = d.length := by
  simp [goCopy]; omega

theorem goCopy_take_of_le (d s : Bytes) (n : Nat) (h : n ≤ s.length) (hd : n ≤ d.length) : (goCopy d s).take n = s.take n := by
  unfold goCopy
  rw [List.take_append_of_le_length (by rw [List.length_take]; omega), List.take_take]
  congr 1; omega

/-- **C280**: a path of at most 255 hops that is set on a path variable is what the variable then gives, whatever it held before; a
path of at least one hop that is unmarshalled too. -/
theorem C280_set_get (p : Path) (s : Bytes) (hp : p.path.length = 255) (hs : s.length ≤ 255) :
    (p.set s).get = some s ∧ (p.set s).path.length = 255 ∧
    (1 ≤ s.length → (p.unmarshal s).get = some s ∧ (p.unmarshal s).path.length = 255) := by
  have h : (p.set s).get = some s ∧ (p.set s).path.length = 255 := by
    refine ⟨?_, by simp [Path.set, goCopy_length', hp]⟩
    unfold Path.get Path.set sliceTo
    dsimp only
    rw [ofNat8_small _ hs, if_pos (by rw [goCopy_length', hp]; exact hs),
      goCopy_take_of_le _ _ _ (Nat.le_refl _) (by omega), List.take_length]
  refine ⟨h.1, h.2, fun h1 => ?_⟩
  rw [show p.unmarshal s = p.set s from by rw [Path.unmarshal, if_neg (by omega)]; rfl]
  exact h

example : ((Path.mk (List.replicate 255 7#8) 9#8).set [1#8, 2#8]).get = some [1#8, 2#8] := by decide +kernel

/-- **C280**: a path that is written to a frame with enough room stands right behind the three bytes of the header; nothing else of the
frame changes. -/
theorem C280_marshal (p : Path) (s frame : Bytes) (hg : p.get = some s) (hf : 3 + s.length ≤ frame.length) :
    p.marshalTo frame = some (frame.take 3 ++ s ++ frame.drop (3 + s.length)) := by
  unfold Path.marshalTo
  unfold Path.get at hg
  rw [hg]
  simp only [Option.bind_some, onSliceFrom, frameFixedLength]
  rw [show (3#8 : Byte).toNat = 3 from rfl, sliceFrom, if_pos (by omega)]
  simp only [goCopy, List.length_drop, List.drop_drop, Option.bind_eq_bind, Option.bind_some]
  rw [List.take_of_length_le (l := s) (by omega), List.append_assoc]

example : (Path.mk ([1#8, 2#8] ++ List.replicate 253 7#8) 2#8).marshalTo [3#8, 2#8, 0#8, 9#8, 9#8, 5#8] =
    some [3#8, 2#8, 0#8, 1#8, 2#8, 5#8] := by decide +kernel

/-- **C280**: set a path of one to 252 hops, write it to a frame whose hop count says that many hops, and initialise another path
variable from the frame: it has the same path, and so has the frame. -/
theorem C280_frame_round_trip (p q : Path) (s frame : Bytes) (hp : p.path.length = 255) (hq : q.path.length = 255)
    (h1 : 1 ≤ s.length) (h2 : s.length ≤ 252) (hf : 3 + s.length ≤ frame.length)
    (hh : frame[1]? = some (BitVec.ofNat 8 s.length)) :
    ∃ f q', (p.set s).marshalTo frame = some f ∧ path f = some s ∧ q.init f = some q' ∧ q'.get = some s := by
  have hm := C280_marshal (p.set s) s frame (C280_set_get p s hp (by omega)).1 hf
  have hpath : path (frame.take 3 ++ s ++ frame.drop (3 + s.length)) = some s := by
    have ht : (frame.take 3).length = 3 := by rw [List.length_take]; omega
    have e1 : (frame.take 3 ++ s ++ frame.drop (3 + s.length))[1]? = some (BitVec.ofNat 8 s.length) := by
      rw [List.append_assoc, List.getElem?_append_left (by omega), List.getElem?_take_of_lt (by omega), hh]
    have hz : (BitVec.ofNat 8 s.length == broadcastHopCount) = false := by
      apply beq_false_of_ne
      intro e
      have := congrArg BitVec.toNat e
      rw [ofNat8_small _ (by omega)] at this
      rw [show broadcastHopCount.toNat = 0 from rfl] at this
      omega
    have hsum : (frameFixedLength + BitVec.ofNat 8 s.length).toNat = 3 + s.length := by
      rw [BitVec.toNat_add, ofNat8_small _ (by omega)]
      show (3 + s.length) % 256 = _
      exact Nat.mod_eq_of_lt (by omega)
    unfold path hopCount isBroadcastFrame
    rw [e1]
    simp only [Option.map_some, Option.bind_some, hz, if_false, Bool.false_eq_true]
    rw [hsum, show frameFixedLength.toNat = 3 from rfl, slice,
      if_pos ⟨by omega, by simp only [List.length_append, ht]; omega⟩, Option.some.injEq,
      List.take_append_of_le_length (by rw [List.length_append, ht]; omega),
      List.take_of_length_le (by rw [List.length_append, ht]; omega), List.drop_left' ht]
  obtain ⟨q', e, hg, _⟩ := (show ∃ v', q.init (frame.take 3 ++ s ++ frame.drop (3 + s.length)) = some v' ∧ v'.get = some s ∧ True from by
    unfold path at hpath
    unfold Path.init
    generalize hopCount (frame.take 3 ++ s ++ frame.drop (3 + s.length)) = hc at hpath ⊢
    cases hc with
    | none => simp at hpath
    | some h =>
      rw [Option.bind_some] at hpath ⊢
      rw [hpath]
      refine ⟨_, rfl, ?_, trivial⟩
      have hlen : h.toNat = s.length := by
        unfold slice at hpath
        split at hpath
        · rename_i hc
          have := congrArg List.length (Option.some.inj hpath)
          rw [List.length_drop, List.length_take, Nat.min_eq_left hc.2, BitVec.toNat_add] at this
          have h3 : frameFixedLength.toNat = 3 := rfl
          have hl := h.isLt
          rw [BitVec.toNat_add] at hc
          omega
        · simp at hpath
      unfold Path.get sliceTo
      dsimp only
      rw [hlen, if_pos (by rw [goCopy_length', hq]; omega), goCopy_take_of_le _ _ _ (Nat.le_refl _) (by omega), List.take_length])
  exact ⟨_, q', hm, hpath, e, hg⟩

example : ∃ f q', ((Path.mk (List.replicate 255 7#8) 9#8).set [1#8, 2#8]).marshalTo [3#8, 2#8, 0#8, 9#8, 9#8, 5#8] = some f ∧
    path f = some [1#8, 2#8] ∧ (Path.mk (List.replicate 255 0#8) 0#8).init f = some q' ∧ q'.get = some [1#8, 2#8] :=
  C280_frame_round_trip _ _ _ _ List.length_replicate List.length_replicate (by decide) (by decide) (by decide) (by decide)

/-- C281 violated: a path of more than 255 hops is taken without an error, and the variable then gives its first hops, as many as
the length leaves modulo 256: never the path, and none at all for 256 hops. -/
theorem C281_long_violated (p : Path) (s : Bytes) (hp : p.path.length = 255) (hs : 256 ≤ s.length) :
    (p.set s).get = some (s.take (s.length % 256)) ∧ (p.unmarshal s).get = some (s.take (s.length % 256)) ∧
    (p.set s).get ≠ some s := by
  have hlt : s.length % 256 < 256 := Nat.mod_lt _ (by decide)
  have h : (p.set s).get = some (s.take (s.length % 256)) := by
    unfold Path.get Path.set sliceTo
    dsimp only
    rw [BitVec.toNat_ofNat, show 2 ^ 8 = 256 from rfl, if_pos (by rw [goCopy_length', hp]; omega),
      goCopy_take_of_le _ _ _ (by omega) (by omega)]
  refine ⟨h, ?_, ?_⟩
  · rw [Path.unmarshal, if_neg (by omega)]; exact h
  · rw [h]
    intro e
    have := congrArg List.length (Option.some.inj e)
    rw [List.length_take] at this
    omega

example : ((Path.mk (List.replicate 255 7#8) 9#8).set (List.replicate 258 1#8)).get = some [1#8, 1#8] := by decide +kernel

/-- C281 violated: unmarshalling no bytes leaves the path that was there. -/
theorem C281_empty_violated (p : Path) : (p.unmarshal []).get = p.get := rfl

/-- C281 violated: a path that does not fit into the frame is cut off at its end, and no error says so. -/
theorem C281_cut_violated (p : Path) (s frame : Bytes) (hg : p.get = some s) (h3 : 3 ≤ frame.length) (hf : frame.length < 3 + s.length) :
    p.marshalTo frame = some (frame.take 3 ++ s.take (frame.length - 3)) := by
  unfold Path.marshalTo
  unfold Path.get at hg
  rw [hg]
  simp only [Option.bind_some, onSliceFrom, frameFixedLength]
  rw [show (3#8 : Byte).toNat = 3 from rfl, sliceFrom, if_pos (by omega)]
  simp only [goCopy, List.length_drop, List.drop_drop, Option.bind_eq_bind, Option.bind_some]
  rw [List.drop_eq_nil_of_le (by omega), List.append_nil]

example : (Path.mk ([1#8, 2#8] ++ List.replicate 253 7#8) 2#8).marshalTo [3#8, 2#8, 0#8, 9#8] = some [3#8, 2#8, 0#8, 1#8] := by
  decide +kernel

/-- C281 violated: a frame of 253 or more hops gives no path: reading it panics, from the frame and into a variable. -/
theorem C281_far_violated (f : Bytes) (p : Path) (h : Byte) (hh : hopCount f = some h) (hn : 253 ≤ h.toNat) :
    path f = none ∧ p.init f = none := by
  have hs : slice f frameFixedLength.toNat (frameFixedLength + h).toNat = none := by
    unfold slice
    rw [if_neg]
    rw [BitVec.toNat_add, show frameFixedLength.toNat = 3 from rfl]
    have := h.isLt
    omega
  unfold path Path.init
  rw [hh, Option.bind_some, Option.bind_some, hs]
  exact ⟨rfl, rfl⟩

example : path ([3#8, 253#8, 0#8] ++ List.replicate 253 1#8) = none := by decide +kernel

end Memar.Chapar

namespace Memar.User
open Memar

/-- **C46**: the six kinds of users are different single bits: each is admitted by the mask of all, by the mask of known users exactly
if it is not the guest, and none of them admits another. -/
theorem C46_kinds : ∀ a ∈ [guest, person, thing, org, app, society],
    checkUserType all a = true ∧ (checkUserType known a = true ↔ a ≠ guest) ∧ checkUserType unset a = false ∧
    ∀ b ∈ [guest, person, thing, org, app, society], checkUserType a b = true ↔ a = b := by
  decide

example : checkUserType known thing = true ∧ checkUserType known guest = false ∧ checkUserType org app = false := by decide

/-- **C46**: a mask made of some of the kinds admits exactly the kinds it is made of. -/
theorem C46_chosen (kinds : List UserType) (h : ∀ k ∈ kinds, k ∈ [guest, person, thing, org, app, society]) (u : UserType)
    (hu : u ∈ [guest, person, thing, org, app, society]) :
    checkUserType (kinds.foldl (· ||| ·) unset) u = true ↔ u ∈ kinds := by
  have hsep : ∀ a ∈ [guest, person, thing, org, app, society], ∀ b ∈ [guest, person, thing, org, app, society], ∀ m : UserType,
      checkUserType (m ||| b) a = true ↔ checkUserType m a = true ∨ a = b := by decide +kernel
  have hg : ∀ (ks : List UserType) (m : UserType), (∀ k ∈ ks, k ∈ [guest, person, thing, org, app, society]) →
      (checkUserType (ks.foldl (· ||| ·) m) u = true ↔ checkUserType m u = true ∨ u ∈ ks) := by
    intro ks
    induction ks with
    | nil => intro m _; simp
    | cons k ks ih =>
      intro m hk
      rw [List.foldl_cons, ih _ fun x hx => hk x (List.mem_cons_of_mem _ hx), hsep u hu k (hk k List.mem_cons_self), List.mem_cons]
      exact or_assoc
  rw [hg kinds unset h, (C46_kinds u hu).2.2.1]
  simp

example : checkUserType ([person, org].foldl (· ||| ·) unset) org = true ∧
    checkUserType ([person, org].foldl (· ||| ·) unset) thing = false := by decide

end Memar.User

namespace Memar.Uri
open Spec

/-- **C101**: a query that is written and given to `Init` of another one gives the same values for every key there: all of them, and
the first. -/
theorem C101_init (m : Values) (order : List Bytes) (hn : order.Nodup) (hall : ∀ k, k ∈ order ↔ (m k).isSome) :
    ∃ t q, toString m order = some t ∧ Query.init t = some (q, none) ∧
      ∀ k, q.lookup k = (m k).getD [] ∧ q.get k = ((m k).getD []).headD [] := by
  obtain ⟨t, m', h1, h2, h3⟩ := C101_round_trip m order hn hall
  refine ⟨t, ⟨some m'⟩, h1, by rw [Query.init, h2]; rfl, fun k => ⟨h3 k, ?_⟩⟩
  rw [Query.get]
  simp only [Query.lookup, h3 k]
  cases (m k).getD [] <;> rfl

/-- Two keys, one with two values. -/
example : ∃ t q, toString (fun k => if k = bs "a" then some [bs "1 ", bs "&"] else if k = bs "b" then some [bs ""] else none)
      [bs "a", bs "b"] = some t ∧ Query.init t = some (q, none) ∧ q.lookup (bs "a") = [bs "1 ", bs "&"] ∧ q.get (bs "a") = bs "1 " := by
  obtain ⟨t, q, h1, h2, h3⟩ := C101_init
    (fun k => if k = bs "a" then some [bs "1 ", bs "&"] else if k = bs "b" then some [bs ""] else none) [bs "a", bs "b"] (by decide)
    (by
      intro k
      by_cases h1 : k = bs "a"
      · subst h1; decide +kernel
      · by_cases h2 : k = bs "b"
        · subst h2; decide +kernel
        · simp [h1, h2])
  exact ⟨t, q, h1, h2, (h3 (bs "a")).1, (h3 (bs "a")).2⟩

end Memar.Uri

namespace Memar.Json
open Memar

/-- **C142**: encoding a codec into another codec over JSON is decoding its text there: the answer is what reading the text into the
object of the other codec answers; the count is zero. -/
theorem C142_encode {S T E} (toJSON : S → Bytes → Option Bytes × Option E) (fromJSON : T → Bytes → T × Option E)
    (c : Codec S) (d : Codec T) (text : Bytes)
    (h : c.payload = some text ∨ c.payload = none ∧ (toJSON c.obj []).1 = some text) :
    c.encode (fun s => (d.decode fromJSON (s.marshal toJSON).2).2) = (0, (fromJSON d.obj text).2) := by
  rcases h with h | ⟨h, ht⟩
  · simp [Codec.encode, Codec.decode, Codec.marshal, h]
  · simp [Codec.encode, Codec.decode, Codec.marshal, h, ht]

example : (Codec.mk (S := Nat) 5 none).encode (fun s => ((Codec.mk (S := Bytes) [] none).decode
    (fun _ t => (t, if t.length = 2 then none else some 1)) (s.marshal fun n b => (some (b ++ List.replicate n 1#8), none)).2).2) =
      (0, some 1) :=
  C142_encode _ _ _ _ (List.replicate 5 1#8) (Or.inr ⟨rfl, rfl⟩)

end Memar.Json

namespace Memar.Net.Extension
open Memar

/-- C229 violated: a data signature frame has a length, a stream and a signature of any size, and the next frame is looked for after
eight bytes whatever the length is: only behind frames of eight bytes is it found. -/
theorem C229_data_signature_violated (frame next : Bytes) (h : 8 ≤ frame.length) :
    nextDataSignature (frame ++ next) = some next ↔ frame.length = 8 := by
  rw [nextDataSignature, sliceFrom, if_pos (by simp; omega), Option.some.injEq]
  constructor
  · intro e
    have := congrArg List.length e
    simp at this
    omega
  · intro e
    exact List.drop_left' e

example : nextDataSignature (List.replicate 38 0#8 ++ [1#8]) ≠ some [1#8] := by decide +kernel

end Memar.Net.Extension

namespace Memar.Net.Gp
open Memar

/-- **C158**: a connection has the addresses it was last initialised with, its own and that of the other side, whatever it had before. -/
theorem C158_connection_addresses (c : Connection) (l r l' r' : Bytes) :
    (c.init l r).localAddr = l ∧ (c.init l r).remoteAddr = r ∧ ((c.init l' r').init l r) = c.init l r := ⟨rfl, rfl, rfl⟩

end Memar.Net.Gp

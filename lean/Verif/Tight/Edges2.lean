import Verif.Chapar.Props
import Verif.Command.Props
import Verif.Command.FlagsProps
import Verif.File.Props
import Verif.Tcp.TimingProps
import Verif.Convert.Props
import Verif.App.Props
import Verif.Minify.Props

/-!
# Where the violated properties do hold, continued
-/

namespace Memar.Chapar
open Memar

/-- The frame of an outcome. -/
def Outcome.frame? : Outcome → Option Bytes
  | .refused _ => none
  | .accepted _ f => some f
  | .forwarded _ f => some f
  | .broadcast f => some f

theorem fixed_add (n : Byte) (h : n.toNat ≤ 252) : (frameFixedLength + n).toNat = 3 + n.toNat := by
  rw [BitVec.toNat_add]; simp [frameFixedLength]; omega

/-- **C192**, the part that holds: a frame that passes the check and whose hop number is at most 251 crashes the receiver
exactly when the place of the hop lies behind the frame, or it is neither the last hop nor a broadcast frame and the
place of the next hop lies behind the frame. It never loses its header.
Missing: frames with a higher hop number, and frames whose path ends behind them. -/
theorem C192_safe_hops_partial (f : Bytes) (n h port : Byte) (hc : checkFrame f = some none) (hn : f[2]? = some n)
    (hh : f[1]? = some h) (h1 : n.toNat ≤ 251) :
    (receive port f ≠ none ↔ 3 + n.toNat < f.length ∧ (h = n + 1#8 ∨ h = 0#8 ∨ 4 + n.toNat < f.length)) ∧
    ∀ o f', receive port f = some o → o.frame? = some f' → f'.take 2 = f.take 2 ∧ f'.length = f.length := by
  have hidx : (frameFixedLength + n).toNat = 3 + n.toNat := fixed_add n (by omega)
  have hn1 : (n + 1#8).toNat = n.toNat + 1 := by rw [BitVec.toNat_add]; simp; omega
  have hidx' : (frameFixedLength + (n + 1#8)).toNat = 3 + (n.toNat + 1) := by rw [fixed_add _ (by omega), hn1]
  have hl2 : 2 < f.length := (List.getElem?_eq_some_iff.mp hn).1
  have hbc : isBroadcastFrame f = some (h == 0#8) := by simp [isBroadcastFrame, hh, broadcastHopCount]
  have hhc : hopCount f = some (if h = 0#8 then 255#8 else h) := by
    rw [hopCount, hbc, Option.bind_some, hh]
    by_cases e : h = 0#8
    · simp [e, maxHopCount]
    · simp [e]
  have hreceive : receive port f = (incrementNextHop f port).bind fun r =>
      if r.1 then (path r.2).map fun p => .accepted p r.2
      else (isBroadcastFrame r.2).bind fun bc =>
        if bc then some (.broadcast r.2)
        else (nextPortNum r.2).map fun p => .forwarded p r.2 := by
    rw [receive, hc, Option.bind_some]
  by_cases hfit : 3 + n.toNat < f.length
  · have hinc : incrementNextHop f port =
        if n = (if h = 0#8 then 255#8 else h) - 1#8 then some (true, f.set (3 + n.toNat) port)
        else some (false, (f.set (3 + n.toNat) port).set 2 (n + 1#8)) := by
      rw [incrementNextHop, nextHop, hn, Option.bind_some, hhc, Option.bind_some, setPortNum, hidx, setAt, if_pos hfit,
        Option.bind_some]
      by_cases hx : n = (if h = 0#8 then 255#8 else h) - 1#8
      · rw [if_pos hx, if_pos hx]
      · rw [if_neg hx, if_neg hx, List.getElem?_set_ne (by omega), hn, Option.bind_some, setAt, if_pos (by simpa using hl2)]; rfl
    have g1 : ∀ x, ((f.set (3 + n.toNat) port).set 2 x)[1]? = some h := by
      intro x; rw [List.getElem?_set_ne (by omega), List.getElem?_set_ne (by omega), hh]
    have t2 : ∀ x, ((f.set (3 + n.toNat) port).set 2 x).take 2 = f.take 2 := by
      intro x; rw [List.take_set_of_le (by omega), List.take_set_of_le (by omega)]
    by_cases hlast : n = (if h = 0#8 then 255#8 else h) - 1#8
    · have hcount : h = n + 1#8 := by
        by_cases e : h = 0#8
        · rw [if_pos e] at hlast
          exfalso
          have := congrArg BitVec.toNat hlast
          simp at this; omega
        · rw [if_neg e] at hlast
          rw [hlast]; exact (BitVec.sub_add_cancel h 1#8).symm
      have h0 : h ≠ 0#8 := by
        intro e; have := congrArg BitVec.toNat (hcount.symm.trans e); rw [hn1] at this; simp at this
      rw [if_pos hlast] at hinc
      have hp : path (f.set (3 + n.toNat) port) = some (((f.set (3 + n.toNat) port).drop 3).take (n.toNat + 1)) := by
        have hb' : isBroadcastFrame (f.set (3 + n.toNat) port) = some false := by
          simp only [isBroadcastFrame, List.getElem?_set_ne (show 3 + n.toNat ≠ 1 by omega), hh, Option.map_some, broadcastHopCount]
          simp [h0]
        rw [path, hopCount, hb', Option.bind_some]
        simp only [Bool.false_eq_true, if_false, List.getElem?_set_ne (show 3 + n.toNat ≠ 1 by omega), hh, Option.bind_some]
        rw [hcount, hidx', show frameFixedLength.toNat = 3 from rfl, slice, if_pos ⟨by omega, by simp; omega⟩]
        rw [List.drop_take, show 3 + (n.toNat + 1) - 3 = n.toNat + 1 by omega]
      have hr : receive port f = some (.accepted (((f.set (3 + n.toNat) port).drop 3).take (n.toNat + 1)) (f.set (3 + n.toNat) port)) := by
        rw [hreceive, hinc, Option.bind_some]; simp only [if_true]; rw [hp]; rfl
      rw [hr]
      refine ⟨⟨fun _ => ⟨hfit, .inl hcount⟩, fun _ => by simp⟩, ?_⟩
      intro o f' ho hf'
      cases ho; cases hf'
      exact ⟨List.take_set_of_le (by omega), by simp⟩
    · rw [if_neg hlast] at hinc
      have hb' : isBroadcastFrame ((f.set (3 + n.toNat) port).set 2 (n + 1#8)) = some (h == 0#8) := by
        simp [isBroadcastFrame, g1, broadcastHopCount]
      by_cases h0 : h = 0#8
      · have hr : receive port f = some (.broadcast ((f.set (3 + n.toNat) port).set 2 (n + 1#8))) := by
          rw [hreceive, hinc, Option.bind_some]
          simp [hb', h0]
        rw [hr]
        refine ⟨⟨fun _ => ⟨hfit, .inr (.inl h0)⟩, fun _ => by simp⟩, ?_⟩
        intro o f' ho hf'
        cases ho; cases hf'
        exact ⟨t2 _, by simp⟩
      · have hne : h ≠ n + 1#8 := by
          intro e; apply hlast; rw [if_neg h0, e, BitVec.add_sub_cancel]
        have hr : receive port f = (((f.set (3 + n.toNat) port).set 2 (n + 1#8))[3 + (n.toNat + 1)]?).map fun p =>
            .forwarded p ((f.set (3 + n.toNat) port).set 2 (n + 1#8)) := by
          rw [hreceive, hinc, Option.bind_some]
          simp only [Bool.false_eq_true, if_false, hb', Option.bind_some, beq_iff_eq, h0]
          rw [nextPortNum, nextHop, List.getElem?_set_self (by simpa using hl2), Option.bind_some, hidx']
        rw [hr]
        refine ⟨?_, ?_⟩
        · by_cases h4 : 4 + n.toNat < f.length
          · have : 3 + (n.toNat + 1) < ((f.set (3 + n.toNat) port).set 2 (n + 1#8)).length := by simp; omega
            rw [List.getElem?_eq_getElem this]
            exact ⟨fun _ => ⟨hfit, .inr (.inr h4)⟩, fun _ => by simp⟩
          · have : ((f.set (3 + n.toNat) port).set 2 (n + 1#8)).length ≤ 3 + (n.toNat + 1) := by simp; omega
            rw [List.getElem?_eq_none this]
            refine ⟨fun e => absurd rfl e, fun e => ?_⟩
            rcases e.2 with e | e | e
            · exact absurd e hne
            · exact absurd e h0
            · exact absurd e h4
        · intro o f' ho hf'
          simp only [Option.map_eq_some_iff] at ho
          obtain ⟨p, _, rfl⟩ := ho
          cases hf'
          exact ⟨t2 _, by simp⟩
  · rw [C192_checked_panic_violated f n port hc hn (by omega) (by omega)]
    exact ⟨⟨fun e => absurd rfl e, fun e => absurd e.1 hfit⟩, fun o f' ho => by simp at ho⟩

example : checkFrame [3, 5, 1, 7, 8, 9] = some none ∧ receive 9#8 [3, 5, 1, 7, 8, 9] = some (.forwarded 9 [3, 5, 2, 7, 9, 9]) := by decide

end Memar.Chapar

namespace Memar.App
open Memar

/-- Specification: someone waits at every change of a history, each waiter being told of one change. -/
def AlwaysAwaited : Nat → SStatus → List SOp → Prop
  | _, _, [] => True
  | w, _, .store v :: os => 0 < w ∧ AlwaysAwaited (w - 1) v os
  | w, s, .cas o n :: os => (s = o → 0 < w ∧ AlwaysAwaited (w - 1) n os) ∧ (s ≠ o → AlwaysAwaited w s os)
  | w, s, .wait :: os => AlwaysAwaited (w + 1) s os

theorem heard_sub (os : List SOp) : ∀ w s, (heard w s os).length ≤ (announced s os).length := by
  induction os with
  | nil => intro w s; simp [heard, announced]
  | cons o os ih =>
    intro w s
    cases o with
    | store v =>
      simp only [heard, announced]
      split
      · have := ih 0 v; simp; omega
      · have := ih (w - 1) v; simp; omega
    | cas o n =>
      simp only [heard, announced]
      split
      · split
        · have := ih 0 n; simp; omega
        · have := ih (w - 1) n; simp; omega
      · exact ih w s
    | wait => exact ih (w + 1) s

/-- **C223**, the part that holds: the watchers of a stream are told every change of its status, in order, exactly in the
histories in which someone waits at every change.
Missing: changes made while nobody waits. -/
theorem C223_always_awaited_partial (is : SStatus) (ops : List SOp) (s0 : Stream) :
    (ops.foldl Stream.op (s0.init is)).chan.got = announced is ops ↔ AlwaysAwaited 0 is ops := by
  rw [(C121_told is ops s0).1]
  suffices H : ∀ (ops : List SOp) w s, heard w s ops = announced s ops ↔ AlwaysAwaited w s ops from H ops 0 is
  intro ops
  induction ops with
  | nil => intro w s; simp [heard, announced, AlwaysAwaited]
  | cons o os ih =>
    intro w s
    have hone : ∀ v, (if w = 0 then heard 0 v os else v :: heard (w - 1) v os) = v :: announced v os ↔
        0 < w ∧ AlwaysAwaited (w - 1) v os := by
      intro v
      by_cases hw : w = 0
      · rw [if_pos hw]
        constructor
        · intro e
          have h1 := heard_sub os 0 v
          rw [e] at h1; simp at h1; omega
        · intro e; omega
      · rw [if_neg hw, List.cons.injEq, ih]
        exact ⟨fun e => ⟨by omega, e.2⟩, fun e => ⟨rfl, e.2⟩⟩
    cases o with
    | store v => simp only [heard, announced, AlwaysAwaited]; exact hone v
    | cas o n =>
      simp only [heard, announced, AlwaysAwaited]
      by_cases he : s = o
      · rw [if_pos he, if_pos he, hone n]
        exact ⟨fun h => ⟨fun _ => h, fun h' => absurd he h'⟩, fun h => h.1 he⟩
      · rw [if_neg he, if_neg he, ih]
        exact ⟨fun h => ⟨fun h' => absurd h' he, fun _ => h⟩, fun h => h.2 he⟩
    | wait => exact ih (w + 1) s

example : AlwaysAwaited 0 1 [.wait, .store 2, .wait, .cas 2 4, .cas 2 5] := by
  simp [AlwaysAwaited]

end Memar.App

namespace Memar.Convert
open Memar

/-- **C218**, the part that holds: a string made from bytes without a copy, and one bytes were made from, keeps its text
under a store exactly when the store is elsewhere or stores the byte that is already there.
Missing: stores of other bytes into the memory of the string. -/
theorem C218_kept_iff_partial (mem : Nat → Byte) (s : StringHeader) (h : SliceHeader) (a : Nat) (b : Byte) :
    (Spec.text (Spec.store mem a b) s = Spec.text mem s ↔ a < s.data ∨ s.data + s.len ≤ a ∨ mem a = b) ∧
    (Spec.text (Spec.store mem a b) (unsafeByteSliceToString h) = Spec.bytes mem h ↔
      a < h.data ∨ h.data + h.len ≤ a ∨ mem a = b) := by
  have key : ∀ (d n : Nat), ((List.range n).map fun k => Spec.store mem a b (d + k)) = ((List.range n).map fun k => mem (d + k)) ↔
      a < d ∨ d + n ≤ a ∨ mem a = b := by
    intro d n
    rw [List.map_inj_left]
    constructor
    · intro hk
      by_cases h1 : a < d
      · exact .inl h1
      · by_cases h2 : d + n ≤ a
        · exact .inr (.inl h2)
        · have := hk (a - d) (by simp; omega)
          rw [show d + (a - d) = a by omega] at this
          simp [Spec.store] at this
          exact .inr (.inr this.symm)
    · intro hk k hm
      have hm := List.mem_range.mp hm
      unfold Spec.store
      split
      · rename_i e
        rcases hk with hk | hk | hk
        · omega
        · omega
        · rw [e, hk]
      · rfl
  exact ⟨key s.data s.len, key h.data h.len⟩

end Memar.Convert

namespace Memar.Minify
open Memar

/-- **C234**, the part that holds: minifying HTML a second time changes nothing exactly when no comment stands in what the
first time left; on a text of one line without a comment nothing is changed at all, so words on one line stay apart.
Missing: words on different lines, and comments that the first time makes. -/
theorem C234_one_line_partial (s : Bytes) :
    (html (html s) = html s ↔ ∀ a body b, html s ≠ a ++ commentStart ++ body ++ bs "-->" ++ b) ∧
    (ch '\n' ∉ s → (∀ a body b, s ≠ a ++ commentStart ++ body ++ bs "-->" ++ b) → html s = s) := by
  refine ⟨?_, fun h1 h2 => ((C145_html_text s).2.2).mpr ⟨h1, h2⟩⟩
  rw [(C145_html_text (html s)).2.2]
  exact ⟨fun h => h.2, fun h => ⟨(C145_html_text s).2.1, h⟩⟩

/-- **C234**, the part that holds: a text is minified exactly as the minifier answers when it accepts the text; when it
rejects it, a file of another kind than a style sheet is left as it is.
Missing: the report of the error, and style sheets. -/
theorem C234_rejected_kept_partial {S E : Type} (k : Codec S E) (min : Bytes → Option Bytes) (s : S) (raw : Bytes)
    (h : k.marshal s = .ok raw) :
    minify k min s = (match min raw with | some m => k.unmarshal s m | none => (s, none)) ∧
    ∀ m, min raw = some m → cssMinify k min s = k.unmarshal s m := by
  refine ⟨?_, fun m hm => by simp [cssMinify, cssBytes, h, hm]⟩
  cases hm : min raw <;> simp [minify, h, hm]

example : ch '\n' ∉ bs "<p>a b</p>" ∧ html (bs "<p>a b</p>") = bs "<p>a b</p>" := by decide +kernel

end Memar.Minify

namespace Memar.Command
open Memar Form

/-- **C195**, the part that holds: a declared flag can be set by its name to a value that is not empty exactly when no
flag declared before it has that name as its abbreviation.
Missing: empty values, and flags whose name is such an abbreviation. -/
theorem C195_settable_partial (accepts : Field → Bytes → Bool) (before after : List Field) (g : Field) (two : Bool) (v : Bytes)
    (hf : checkFields (before ++ g :: after) = true) (hn : GoodName g.name) (hv : v ≠ []) (ha : accepts g v = true) :
    parse accepts ⟨before ++ g :: after, [], [dash two ++ g.name ++ ch '=' :: v]⟩ = (⟨before ++ g :: after, [(g, v)], []⟩, none) ↔
      ∀ f ∈ before, f.abbr ≠ g.name := by
  have hdist : ∀ f ∈ before, f.name ≠ g.name := by
    simp only [checkFields, Bool.and_eq_true, decide_eq_true_eq, List.map_append, List.map_cons, List.pairwise_append] at hf
    intro f hm
    exact hf.2.2.2 f.name (List.mem_map.mpr ⟨f, hm, rfl⟩) g.name (by simp)
  constructor
  · intro hp f hm he
    have hone := parseOne_named accepts ⟨before ++ g :: after, [], [dash two ++ g.name ++ ch '=' :: v]⟩ two g.name (ch '=' :: v) []
      hn (.inr ⟨v, rfl⟩) rfl
    rw [List.drop_one, List.tail_cons, checkAndSet, if_pos (List.length_pos_iff.mpr hv)] at hone
    obtain ⟨x, hx⟩ : ∃ x, lookup before g.name = some x := by
      cases h : lookup before g.name with
      | some x => exact ⟨x, rfl⟩
      | none =>
        rw [lookup, List.find?_eq_none] at h
        exact absurd (by simp [he]) (h f hm)
    have hxm : x ∈ before := by rw [lookup] at hx; exact List.mem_of_find?_eq_some hx
    have hl : lookup (before ++ g :: after) g.name = some x := by
      rw [lookup, List.find?_append]; rw [lookup] at hx; rw [hx]; rfl
    have hne : x ≠ g := fun e => hdist x hxm (by rw [e])
    rw [parse, dif_neg (by simp)] at hp
    by_cases hacc : accepts x v = true
    · rw [set_some accepts _ _ _ x hl hacc] at hone
      rw [dif_pos (by rw [hone]), hone, parse, dif_pos rfl] at hp
      simp at hp
      exact hne hp
    · have hone' : (parseOne accepts ⟨before ++ g :: after, [], [dash two ++ g.name ++ ch '=' :: v]⟩).2 = some .fromString := by
        rw [hone, set, hl]
        dsimp only
        rw [if_neg hacc]
      rw [dif_neg (by rw [hone']; simp)] at hp
      rw [hp] at hone'
      simp at hone'
  · intro hb
    have hl : lookup (before ++ g :: after) g.name = some g :=
      (C44_lookup _ _ _).mpr ⟨before, after, rfl, .inl rfl, fun f hm => ⟨hdist f hm, hb f hm⟩⟩
    refine (C44_assigns_in_order accepts ⟨_, [], _⟩ [.withValue two g.name g v] [] ?_ rfl).2 rfl
    intro fm hfm
    simp only [List.mem_singleton] at hfm
    subst hfm
    exact ⟨hn, hl, ha, hv⟩

example : checkFields ([⟨bs "port", bs "p", false⟩] ++ ⟨bs "path", [], false⟩ :: []) = true ∧ GoodName (bs "path") := by decide +kernel

/-- **C235**, the part that holds: the number of set flags that is answered is right exactly when every declared flag was
set.
Missing: every command line that leaves a flag out, and the root of a command, which is never answered. -/
theorem C235_all_set_partial (accepts : Field → Bytes → Bool) (fields : List Field) (arguments : List Bytes) (s : FlagSet)
    (e : Option Err) (h : fromCLA accepts fields arguments = some (s, e)) :
    nFlag s = (fields.filter fun f => s.sets.any fun p => p.1 = f).length ↔ ∀ f ∈ fields, ∃ v, (f, v) ∈ s.sets := by
  rw [C235_nflag_violated accepts fields arguments s e h, eq_comm, List.length_filter_eq_length_iff]
  constructor
  · intro hk f hf
    have := hk f hf
    simp only [List.any_eq_true, decide_eq_true_eq] at this
    obtain ⟨p, hp, rfl⟩ := this
    exact ⟨p.2, hp⟩
  · intro hk f hf
    obtain ⟨v, hv⟩ := hk f hf
    simp only [List.any_eq_true, decide_eq_true_eq]
    exact ⟨_, hv, rfl⟩

example := C235_all_set_partial (fun _ _ => true) [⟨bs "port", bs "p", false⟩] [bs "-p=1"] _ _
  (Option.some_get (show (fromCLA (fun _ _ => true) [⟨bs "port", bs "p", false⟩] [bs "-p=1"]).isSome by decide +kernel)).symm

/-- **C205**, the part that holds: the sub command named help runs when it is called by that word. Without further words a
command never runs anything: it fails when no sub command answers to help or one does only by an alias, and otherwise
panics.
Missing: help without further words. -/
theorem C205_help_by_word_partial (n a : Bytes) (l : List Bytes) (subs : List Cmd) :
    (∀ c rest, Cmd.subCommand subs (bs "help") = some c → c.name = bs "help" →
      Cmd.serve (.group n a l subs) (bs "help" :: rest) = Cmd.serve c rest) ∧
    (Cmd.serve (.group n a l subs) [] = .panics ↔
      ∃ c, Cmd.subCommand subs (bs "help") = some c ∧ (c.name = bs "help" ∨ c.abbr = bs "help")) ∧
    (∀ id args, Cmd.serve (.group n a l subs) [] ≠ .handled id args) := by
  refine ⟨?_, ?_, ?_⟩
  · intro c rest h hc
    rw [Cmd.serve, Cmd.serveSubs_eq, List.headD_cons, h]
    simp [hc]
  · rw [Cmd.serve, Cmd.serveSubs_eq, List.headD_nil]
    cases h : Cmd.subCommand subs (bs "help") with
    | none => simp
    | some c =>
      by_cases hc : bs "help" ≠ c.name ∧ bs "help" ≠ c.abbr
      · simp only [if_pos hc, Option.some.injEq, exists_eq_left']
        refine ⟨fun e => by simp at e, fun e => ?_⟩
        rcases e with e | e
        · exact absurd e.symm hc.1
        · exact absurd e.symm hc.2
      · simp only [if_neg hc, Option.some.injEq, exists_eq_left', true_iff]
        by_cases h1 : c.name = bs "help"
        · exact .inl h1
        · exact .inr (Decidable.byContradiction fun h2 => hc ⟨fun e => h1 e.symm, fun e => h2 e.symm⟩)
  · intro id args
    rw [Cmd.serve, Cmd.serveSubs_eq, List.headD_nil]
    cases h : Cmd.subCommand subs (bs "help") with
    | none => simp
    | some c =>
      by_cases hc : bs "help" ≠ c.name ∧ bs "help" ≠ c.abbr
      · simp [if_pos hc]
      · simp only [if_neg hc]; simp

example : Cmd.subCommand [.handler (bs "help") [] [] 3] (bs "help") = some (.handler (bs "help") [] [] 3) := by
  simp [Cmd.subCommand, Cmd.answersTo, Cmd.name]

end Memar.Command

namespace Memar.File
open Memar

/-- **C207**, the part that holds: a path that only goes up finds the file of that name in the directory it reaches when it
goes up at least once and not above the root; it panics exactly when it goes above the root.
Missing: bare names, which find nothing, and paths above the root. -/
theorem C207_up_partial (t : Tree) (d : List Bytes) (k : Nat) (name : Bytes) (h : ch '/' ∉ name) :
    (1 ≤ k → k ≤ d.length →
      findByRelativeFrom t.fs (some d) (List.intercalate [ch '/'] (List.replicate k (bs "..") ++ [name])) =
        some (if t.isFile (d.take (d.length - k) ++ [name]) then some (d.take (d.length - k) ++ [name]) else none)) ∧
    (findByRelativeFrom t.fs (some d) (List.intercalate [ch '/'] (List.replicate k (bs "..") ++ [name])) = none ↔
      d.length < k) := by
  have hfound : 1 ≤ k → k ≤ d.length →
      findByRelativeFrom t.fs (some d) (List.intercalate [ch '/'] (List.replicate k (bs "..") ++ [name])) =
        some (if t.isFile (d.take (d.length - k) ++ [name]) then some (d.take (d.length - k) ++ [name]) else none) := by
    intro h1 h2
    have hl : (d.drop (d.length - k)).length = k := by rw [List.length_drop]; omega
    have := C85_finds t (d.take (d.length - k)) (d.drop (d.length - k)) [] name 0 (by simp; omega) (by simp) h (by simp)
    rw [List.take_append_drop, hl] at this
    simpa [relative] using this
  refine ⟨hfound, ?_⟩
  constructor
  · intro e
    by_cases hk : k ≤ d.length
    · by_cases h1 : 1 ≤ k
      · rw [hfound h1 hk] at e; simp at e
      · have : k = 0 := by omega
        subst this
        have hb := C207_bare_name_violated t.fs (some d) name h
        simp only [List.replicate_zero, List.nil_append, List.intercalate, List.intersperse, List.flatten_cons,
          List.flatten_nil, List.append_nil] at e
        rw [hb] at e; simp at e
    · omega
  · intro hk
    have hs : split (List.intercalate [ch '/'] (List.replicate k (bs "..") ++ [name])) (ch '/')
        = List.replicate k (bs "..") ++ [name] := by
      refine split_join _ _ (by simp) ?_
      intro x hx
      rcases List.mem_append.1 hx with hx | hx
      · rw [List.mem_replicate] at hx; rw [hx.2]; decide
      · simp only [List.mem_singleton] at hx; subst hx; exact h
    rw [findByRelativeFrom, hs, if_neg (by simp; omega)]
    obtain ⟨m, hm⟩ : ∃ m, k = d.length + (m + 1) := ⟨k - d.length - 1, by omega⟩
    rw [hm, ← List.replicate_append_replicate, List.append_assoc]
    have := walk_up t [] d (List.replicate (m + 1) (bs "..") ++ [name]) (by simp)
    rw [List.nil_append] at this
    rw [this, List.replicate_succ, List.cons_append]
    obtain ⟨x, xs, hx⟩ : ∃ x xs, List.replicate m (bs "..") ++ [name] = x :: xs := by
      cases m with
      | zero => exact ⟨_, _, rfl⟩
      | succ m => exact ⟨_, _, rfl⟩
    rw [hx, walk, if_neg (by decide), if_pos rfl, Option.bind_some]
    have hp : t.fs.parent [] = none := by simp [Tree.fs]
    rw [hp, ← hx]
    cases m with
    | zero => rfl
    | succ m =>
      obtain ⟨y, ys, hy⟩ : ∃ y ys, List.replicate m (bs "..") ++ [name] = y :: ys := by
        cases m with
        | zero => exact ⟨_, _, rfl⟩
        | succ m => exact ⟨_, _, rfl⟩
      rw [List.replicate_succ, List.cons_append, hy, walk, if_neg (by decide), if_pos rfl]; rfl

example := C207_up_partial ⟨fun d => d == [bs "img"], fun f => f == [bs "a.png"]⟩ [bs "img"] 1 (bs "a.png") (by decide)

end Memar.File

namespace Memar.Tcp

/-- **C210**, the part that holds: at the checks of a stream that stays idle, made when they are due, a probe is sent each
time until the configured nine are sent, at most one more is sent, and every later check closes the stream.
Missing: the tenth check, which still probes, and the time of the next check. -/
theorem C210_probes_partial (k : Checker) (he : k.enable = true) (hr : k.retryCount = 0) (nows : List Int) (hd : AllDue k nows) :
    (nows.length ≤ 9 → ((idleChecks k nows).filter (·.probed)).length = nows.length ∧ ∀ c ∈ idleChecks k nows, c.closed = false) ∧
    ((idleChecks k nows).filter (·.probed)).length ≤ 9 + 1 ∧
    ∀ c ∈ (idleChecks k nows).drop (9 + 1), c.closed = true ∧ c.probed = false := by
  obtain ⟨h1, h2⟩ := idleChecks_probed k he nows hd
  have hcount : ((idleChecks k nows).filter (·.probed)).length =
      (((idleChecks k nows).map (·.probed)).filter id).length := by
    rw [List.filter_map]; simp [Function.comp_def]
  rw [hcount, h1, hr]
  rw [hr] at h1 h2
  refine ⟨?_, ?_, ?_⟩
  · intro hl
    refine ⟨by rw [List.filter_append]; simp; omega, ?_⟩
    intro c hc
    have : c.closed ∈ (idleChecks k nows).map (·.closed) := List.mem_map.mpr ⟨c, hc, rfl⟩
    rw [h2, show nows.length - (10 - 0) = 0 by omega] at this
    simp at this
    exact this.2
  · rw [List.filter_append]; simp; omega
  · intro c hc
    have g1 : c.closed ∈ ((idleChecks k nows).map (·.closed)).drop 10 := by
      rw [← List.map_drop]; exact List.mem_map.mpr ⟨c, hc, rfl⟩
    have g2 : c.probed ∈ ((idleChecks k nows).map (·.probed)).drop 10 := by
      rw [← List.map_drop]; exact List.mem_map.mpr ⟨c, hc, rfl⟩
    rw [h2, List.drop_append] at g1
    rw [h1, List.drop_append] at g2
    have hz : (List.replicate (min nows.length (10 - 0)) false).drop 10 = [] := by
      rw [List.drop_eq_nil_iff]; simp; omega
    have hz' : (List.replicate (min nows.length (10 - 0)) true).drop 10 = [] := by
      rw [List.drop_eq_nil_iff]; simp; omega
    rw [hz, List.nil_append] at g1
    rw [hz', List.nil_append] at g2
    exact ⟨List.eq_of_mem_replicate (List.mem_of_mem_drop g1), List.eq_of_mem_replicate (List.mem_of_mem_drop g2)⟩

example : AllDue ⟨true, 50, 10, 3, 0, 0⟩ [1, 11, 21, 31, 41, 51, 61, 71, 81, 91, 101] := by
  simp [AllDue, kaCheck, probes]

end Memar.Tcp

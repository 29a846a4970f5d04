import Verif.Syllab.PropsDyn
import Verif.Http.ContentType
import Verif.Tcp.LifeProps
import Verif.Time.ClockProps
import Verif.Go.ParserProps
import Verif.Time.Props
import Verif.Www.AssetsProps

/-!
# C73, C89, C133, C135, C141, C178, C199, C209, C247: contents that are cut off, second parameters, templates of scripts, and
what is empty after a reset
-/

namespace Memar.Syllab
open Memar Memar.Binary Spec

theorem goCopy_take {α} (t s : List α) : goCopy t (s.take t.length) = goCopy t s := by
  unfold goCopy
  rw [List.take_take, Nat.min_self]
  congr 1
  rw [List.length_take]
  by_cases h : t.length ≤ s.length
  · rw [Nat.min_eq_left h, List.drop_eq_nil_of_le (Nat.le_refl _), List.drop_eq_nil_of_le h]
  · rw [Nat.min_eq_right (by omega)]

/-- **C178** violated for every buffer that ends before the contents do: encoding reports success, and decoding answers
the contents with every byte that did not fit replaced by zero. It is the value that was encoded only if all these
bytes were zero. -/
theorem C178_short_heap_any_violated (p s : Bytes) (st heap : U32) (h1 : st.toNat + 8 ≤ heap.toNat)
    (h2 : heap.toNat ≤ p.length) (h3 : p.length < heap.toNat + s.length) (hp : p.length < 2 ^ 32)
    (hs : s.length < 2 ^ 32) :
    ∃ p' next, setByteArray p s st heap = some (p', next) ∧ p'.length = p.length ∧
      getByteArray p' st = some (s.take (p.length - heap.toNat) ++
        List.replicate (heap.toNat + s.length - p.length) 0#8) := by
  have hl8 : (leDigits 4 heap.toNat ++ leDigits 4 s.length).length = 8 := by simp [leDigits_length]
  have htl : (s.take (p.length - heap.toNat)).length = p.length - heap.toNat := by simp; omega
  have e := setDyn_eq p s.length (s.take (p.length - heap.toNat)) 1 st heap hs (by omega) (by omega) (by omega)
  have hcut : setByteArray p s st heap = setDyn p (BitVec.ofNat 32 s.length) (s.take (p.length - heap.toNat)) 1 st heap := by
    have hd := setDesc_eq p st heap (BitVec.ofNat 32 s.length) (by omega) (by omega)
    have hn' : (BitVec.ofNat 32 s.length).toNat = s.length := by simp; omega
    rw [hn'] at hd
    unfold setByteArray setDyn len32
    simp only [Option.bind_eq_bind]
    rw [← Option.bind_assoc, hd, Option.bind_some, ← Option.bind_assoc, hd, Option.bind_some]
    have hlen := overwrite_length p st.toNat (leDigits 4 heap.toNat ++ leDigits 4 s.length) (by omega)
    have hsl : sliceFrom (overwrite p st.toNat (leDigits 4 heap.toNat ++ leDigits 4 s.length)) heap.toNat =
        some ((overwrite p st.toNat (leDigits 4 heap.toNat ++ leDigits 4 s.length)).drop heap.toNat) := by
      unfold sliceFrom; rw [if_pos (by omega)]
    simp only [onSliceFrom, hsl, Option.bind_eq_bind, Option.bind_some]
    rw [← goCopy_take _ s, List.length_drop, hlen]
  rw [e] at hcut
  refine ⟨_, _, hcut, ?_, ?_⟩
  · have hlen := overwrite_length p st.toNat (leDigits 4 heap.toNat ++ leDigits 4 s.length) (by omega)
    rw [overwrite_length _ _ _ (by omega), hlen]
  · have hlen := overwrite_length p st.toNat (leDigits 4 heap.toNat ++ leDigits 4 s.length) (by omega)
    have hlen2 := overwrite_length (overwrite p st.toNat (leDigits 4 heap.toNat ++ leDigits 4 s.length)) heap.toNat
      (s.take (p.length - heap.toNat)) (by omega)
    have hn' : (BitVec.ofNat 32 s.length).toNat = s.length := by simp; omega
    have hreg : region (overwrite (overwrite p st.toNat (leDigits 4 heap.toNat ++ leDigits 4 s.length)) heap.toNat
        (s.take (p.length - heap.toNat))) st.toNat 8 = leDigits 4 heap.toNat ++ leDigits 4 (BitVec.ofNat 32 s.length).toNat := by
      rw [region_overwrite_disjoint _ _ _ _ _ (by omega) (by omega), hn']
      have := region_overwrite_same p st.toNat (leDigits 4 heap.toNat ++ leDigits 4 s.length) (by omega)
      rw [hl8] at this
      exact this
    have g := getDesc _ st heap (BitVec.ofNat 32 s.length) (by omega) (by omega) hreg
    obtain ⟨x, hx, hxl, hxi⟩ := (C04_short_buffer _ st heap (BitVec.ofNat 32 s.length) g.1 g.2 (by omega)).1
    rw [hx]
    congr 1
    apply List.ext_getElem?
    intro i
    rw [hn'] at hxl hxi
    by_cases hi : i < s.length
    · rw [hxi i hi, overwrite_get _ _ _ (by omega), htl]
      by_cases hc : i < p.length - heap.toNat
      · rw [if_pos (by omega), List.getElem?_append_left (by omega), show heap.toNat + i - heap.toNat = i by omega,
          List.getElem?_take_of_lt hc, List.getElem?_eq_getElem hi]
        rfl
      · rw [if_neg (by omega), List.getElem?_append_right (by omega), htl,
          List.getElem?_eq_none (by omega), List.getElem?_replicate, if_pos (by omega)]
        rfl
    · rw [List.getElem?_eq_none (by omega), List.getElem?_eq_none (by simp; omega)]

example : setByteArray (List.replicate 9 0) [7, 9] 0 8 = some ([8, 0, 0, 0, 2, 0, 0, 0, 7], 10) ∧
    getByteArray [8, 0, 0, 0, 2, 0, 0, 0, 7] 0 = some [7, 0] := by decide

end Memar.Syllab

namespace Memar.Http
open Memar

/-- C279 violated for a second parameter, exactly: the first one is cut off, but the search for separators goes on at
the place where the type ended. When the first parameter ends before that place, it swallows the second one; otherwise
the first parameter is lost, and the part of it behind the length of the type is taken for the sub type. -/
theorem C279_second_parameter_violated (t s p q : Bytes) (ht : ch '/' ∉ t ∧ ch ';' ∉ t) (hs : ch '/' ∉ s ∧ ch ';' ∉ s)
    (hp : ch '/' ∉ p ∧ ch ';' ∉ p) (hq : ch '/' ∉ q ∧ ch ';' ∉ q) :
    contentTypeFromString (t ++ ch '/' :: (s ++ ch ';' :: ch ' ' :: (p ++ ch ';' :: ch ' ' :: q))) =
      if p.length < t.length + s.length + 2 then
        (ctParam (p ++ ch ';' :: ch ' ' :: q)).map fun r => ⟨ctType t, ctSubType s, r.1, r.2⟩
      else (ctParam q).map fun r => ⟨ctType t, ctSubType (p.drop (t.length + 1)), r.1, r.2⟩ := by
  have e : ctLoop (t ++ ch '/' :: (s ++ ch ';' :: ch ' ' :: (p ++ ch ';' :: ch ' ' :: q))) 0 0 [] [] =
      ctLoop (p ++ ch ';' :: ch ' ' :: q) (t.length + s.length + 2) (t.length + 1) t s := by
    generalize p ++ ch ';' :: ch ' ' :: q = p'
    have len : (t ++ ch '/' :: (s ++ ch ';' :: ch ' ' :: p')).length = t.length + 1 + s.length + 2 + p'.length := by
      simp; omega
    rw [ctLoop_skip _ 0 t.length 0 [] [] (by omega) (by omega) (by
      intro k _ hk
      rw [List.getElem?_append_left hk]
      exact ⟨getElem?_not_mem ht.1 k, getElem?_not_mem ht.2 k⟩)]
    rw [ctLoop, dif_pos (by omega), if_pos (by simp), take_append_len]
    have assoc : t ++ ch '/' :: (s ++ ch ';' :: ch ' ' :: p') = (t ++ ch '/' :: s) ++ ch ';' :: (ch ' ' :: p') := by simp
    rw [ctLoop_skip _ (t.length + 1) (t.length + 1 + s.length) _ _ _ (by omega) (by omega) (by
      intro k hk1 hk2
      rw [List.getElem?_append_right (by omega)]
      obtain ⟨m, rfl⟩ : ∃ m, k = t.length + 1 + m := ⟨k - (t.length + 1), by omega⟩
      rw [show t.length + 1 + m - t.length = m + 1 by omega, List.getElem?_cons_succ,
        List.getElem?_append_left (by omega)]
      exact ⟨getElem?_not_mem hs.1 m, getElem?_not_mem hs.2 m⟩)]
    have l2 : (t ++ ch '/' :: s).length = t.length + 1 + s.length := by simp; omega
    have hget : ∀ h, (t ++ ch '/' :: (s ++ ch ';' :: ch ' ' :: p'))[t.length + 1 + s.length]'h = ch ';' := by
      intro h
      apply Option.some.inj
      rw [← List.getElem?_eq_getElem, assoc, ← l2, List.getElem?_append_right (Nat.le_refl _)]
      simp
    have hsl : slice (t ++ ch '/' :: (s ++ ch ';' :: ch ' ' :: p')) (t.length + 1) (t.length + 1 + s.length) = some s := by
      unfold slice
      rw [if_pos (by omega), assoc, ← l2, take_append_len, drop_append_len]
    rw [ctLoop, dif_pos (by omega), if_neg (by rw [hget]; decide), if_pos (hget _), hsl]
    simp only
    rw [if_pos (by omega)]
    have hdr : (t ++ ch '/' :: (s ++ ch ';' :: ch ' ' :: p')).drop (t.length + 1 + s.length + 2) = p' := by
      rw [assoc, ← l2, show (t ++ ch '/' :: s).length + 2 = (t ++ ch '/' :: s).length + 1 + 1 from rfl,
        ← List.drop_drop, drop_append_len]
      rfl
    rw [hdr, show t.length + 1 + s.length + 1 = t.length + s.length + 2 by omega]
  have fin : ∀ (x : Bytes) (i index : Nat) (f g : Bytes), (∀ k, i ≤ k → x[k]? ≠ some (ch '/') ∧ x[k]? ≠ some (ch ';')) →
      ctLoop x i index f g = some (x, f, g) := by
    intro x i index f g hx
    by_cases hi : i ≤ x.length
    · rw [ctLoop_skip x i x.length index f g hi (Nat.le_refl _) (fun k hk _ => hx k hk)]
      rw [ctLoop, dif_neg (by omega)]
    · rw [ctLoop, dif_neg (by omega)]
  unfold contentTypeFromString
  rw [e]
  by_cases hlt : p.length < t.length + s.length + 2
  · rw [if_pos hlt, fin _ _ _ _ _ (by
      intro k hk
      rw [List.getElem?_append_right (by omega)]
      obtain ⟨m, hm⟩ : ∃ m, k - p.length = m + 1 := ⟨k - p.length - 1, by omega⟩
      rw [hm, List.getElem?_cons_succ]
      cases m with
      | zero => constructor <;> (intro h; exact absurd (Option.some.inj h) (by decide))
      | succ m =>
        rw [List.getElem?_cons_succ]
        exact ⟨getElem?_not_mem hq.1 m, getElem?_not_mem hq.2 m⟩)]
  · have hlen : (p ++ ch ';' :: ch ' ' :: q).length = p.length + 2 + q.length := by simp; omega
    rw [if_neg hlt, ctLoop_skip _ _ p.length _ _ _ (by omega) (by omega) (by
      intro k _ hk
      rw [List.getElem?_append_left hk]
      exact ⟨getElem?_not_mem hp.1 k, getElem?_not_mem hp.2 k⟩)]
    have hget : ∀ h, (p ++ ch ';' :: ch ' ' :: q)[p.length]'h = ch ';' := by intro h; simp
    have hsl : slice (p ++ ch ';' :: ch ' ' :: q) (t.length + 1) p.length = some (p.drop (t.length + 1)) := by
      unfold slice
      rw [if_pos (by omega), take_append_len]
    rw [ctLoop, dif_pos (by omega), if_neg (by rw [hget]; decide), if_pos (hget _), hsl]
    simp only
    have hdr : (p ++ ch ';' :: ch ' ' :: q).drop (p.length + 2) = q := by
      rw [show p.length + 2 = p.length + 1 + 1 from rfl, ← List.drop_drop, drop_append_len]; rfl
    rw [if_pos (by omega), hdr, fin q _ _ _ _ (fun k _ => ⟨getElem?_not_mem hq.1 k, getElem?_not_mem hq.2 k⟩)]

example : contentTypeFromString (bs "text/html; charset=utf-8; boundary=x") =
      some ⟨.text, .unset, [], bs "x"⟩ ∧
    contentTypeFromString (bs "text/html; charset=; boundary=x") = some ⟨.text, .html, bs "; boundary=x", []⟩ := by decide +kernel

end Memar.Http

namespace Memar.Tcp
open Memar

/-- **C141**: resetting the timing of a stream resets its keep-alive, which is then off with nothing counted, whatever
stopping its timer answers, and that answer is the result once the timer has been set. -/
theorem C141_timing_reset (stopped : Option LifeErr) (t : Timing) :
    (timingReinit stopped t).1.ka = kaReinit t.ka ∧ (timingReinit stopped t).1.ka.enable = false ∧
    (timingReinit stopped t).1.ka.retryCount = 0 ∧ (t.armed ≠ [] → (timingReinit stopped t).2 = stopped) := by
  refine ⟨rfl, rfl, rfl, fun h => ?_⟩
  simp [timingReinit, timerStop, h]

end Memar.Tcp

namespace Memar.Time
open Memar

/-- **C247** violated for local time: it is the epoch itself, to the nanosecond, for every time. -/
theorem C247_local_epoch_violated (t : Time) : t.local.instant = 0 ∧ t.local.Normal := by
  have : t.local = ⟨0#64, 0#32⟩ := rfl
  rw [this]
  exact ⟨by decide, by unfold Time.Normal; decide⟩

/-- C73: a `Store` without interference is the store of the whole time at once: whatever was there, the new time is. -/
theorem C73_store_alone (old new l : Time) (o : Bool → I32) :
    old.store new = new ∧
    ([AtomicStep.storeLoad true, .storeSec true, .storeNsec true].foldl AtomicWorld.step
      ⟨old, fun _ => new, o, l⟩).shared = old.store new := by
  refine ⟨rfl, ?_⟩
  simp [AtomicWorld.step]
  rfl

end Memar.Time

namespace Memar.GoParser
open Memar

/-- **C135**: a package that was initialised, whatever it held before, has no file, import, function or type under any
name. -/
theorem C135_init (p : Package) (name : Bytes) :
    p.init.files name = none ∧ p.init.imports name = none ∧ p.init.functions name = none ∧ p.init.types name = none :=
  ⟨rfl, rfl, rfl, rfl⟩

end Memar.GoParser

namespace Memar.Www
open Memar

/-- C89. A minified template is inserted right after the first grave accent behind the first place with its name, a
quote, a colon and a bracket. -/
theorem C89_html_template (minify : Bytes → Option Bytes) (html mhtml name a b c : Bytes) (hmin : minify html = some mhtml)
    (hname : ch '(' ∉ name ∧ ch '`' ∉ name) (ha : ¬ (name ++ bs "\": (") <:+: a) (hb : ch '`' ∉ b) :
    mixHTMLTemplateToJS minify (a ++ ((name ++ bs "\": (") ++ (b ++ ch '`' :: c))) html name =
      some (a ++ ((name ++ bs "\": (") ++ (b ++ ch '`' :: (mhtml ++ c)))) := by
  have hu : EndsUniquely (name ++ bs "\": (") :=
    ⟨name ++ bs "\": ", ch '(', by simp [bs]; decide, by simp only [List.mem_append, not_or]; exact ⟨hname.1, by decide⟩⟩
  unfold mixHTMLTemplateToJS
  rw [hmin]
  simp only
  rw [indexOf_first _ hu a _ ha]
  simp only
  unfold insertAt
  have hd : (a ++ ((name ++ bs "\": (") ++ (b ++ ch '`' :: c))).drop a.length = ((name ++ bs "\": (") ++ b) ++ ch '`' :: c := by
    rw [List.drop_left' rfl, List.append_assoc (name ++ bs "\": (")]
  rw [hd, indexByte_append _ c _ (by simp only [List.mem_append, not_or]; exact ⟨⟨hname.2, by decide⟩, hb⟩)]
  simp only
  have e : a ++ ((name ++ bs "\": (") ++ (b ++ ch '`' :: c)) = (a ++ ((name ++ bs "\": (") ++ b) ++ [ch '`']) ++ c := by simp
  have hl : ((name ++ bs "\": (") ++ b).length + a.length + 1 = (a ++ ((name ++ bs "\": (") ++ b) ++ [ch '`']).length := by
    simp; omega
  rw [e, List.take_left' hl.symm, List.drop_left' hl.symm]
  simp

example := C89_html_template some (bs "<a>") (bs "<a>") (bs "t") (bs "x = {\"") (bs "y) => ") (bs "</a>`}") rfl
  (by decide +kernel) (by decide +kernel) (by decide +kernel)

/-- C209 fails for templates: a script without a place for the template is lost, without an error. -/
theorem C209_html_template_violated (minify : Bytes → Option Bytes) (html mhtml name js : Bytes) (hmin : minify html = some mhtml)
    (h : ¬ (name ++ bs "\": (") <:+: js) : mixHTMLTemplateToJS minify js html name = some [] := by
  unfold mixHTMLTemplateToJS
  rw [hmin]
  simp only
  rw [(indexOf_nil_iff _ _).mpr h]

example : mixHTMLTemplateToJS some (bs "x = {\"t\": (y) => `</a>`}") (bs "<a>") (bs "t") =
    some (bs "x = {\"t\": (y) => `<a></a>`}") := by decide +kernel

end Memar.Www

namespace Memar.Www.Assets
open Memar Memar.File ASpec

theorem last_dot (s : Bytes) (h : ch '.' ∈ s) : ∃ a b, s = a ++ ch '.' :: b ∧ ch '.' ∉ b := by
  induction s with
  | nil => simp at h
  | cons c s ih =>
    by_cases hs : ch '.' ∈ s
    · obtain ⟨a, b, e, hb⟩ := ih hs
      exact ⟨c :: a, b, by rw [e]; rfl, hb⟩
    · rcases List.mem_cons.1 h with h | h
      · exact ⟨[], s, by rw [h]; rfl, hs⟩
      · exact absurd h hs

/-- C133: the style sheets of a directory are served as one: the contents of its files that are style sheets, one after
the other and minified, under a name made from the checksum of what is served; every script that names the sheet of the
directory once names it so afterwards. Missing: as for single sheets. -/
theorem C133_style_dir_partial (E : Env) (scripts : List Bytes) (hn : scripts.Nodup) (w : World) (d : Bytes)
    (files : List (Bytes × Bytes)) (css : Bytes)
    (hc : css = ((files.filter fun f => (bs ".css").isSuffixOf f.1).map (·.2)).flatten) :
    let served := hashed E d (bs "css") (E.minify (bs "css") css)
    styleDir E scripts w (d, files) .designLanguages served = some (E.minify (bs "css") css) ∧
      ∀ s ∈ scripts, ∀ x y, w .gui s = some (x ++ (d ++ bs ".css") ++ y) → indexOf (x ++ (d ++ bs ".css") ++ y) (d ++ bs ".css") = some x.length →
        ¬ (d ++ bs ".css") <:+: y → styleDir E scripts w (d, files) .gui s = some (x ++ served ++ y) := by
  have e : d ++ bs ".css" = d ++ ch '.' :: bs "css" := by rw [show bs ".css" = ch '.' :: bs "css" by decide]
  have hf : ∀ f : Bytes × Bytes, decide (extension f.1 = bs "css") = (bs ".css").isSuffixOf f.1 := by
    intro f
    rw [Bool.eq_iff_iff, decide_eq_true_iff, List.isSuffixOf_iff_suffix]
    constructor
    · intro h
      by_cases hd : ch '.' ∈ f.1
      · obtain ⟨a, b, hab, hb⟩ := last_dot f.1 hd
        rw [(C84_extension _).2 a b hab hb] at h
        exact ⟨a, by rw [hab, h, show bs ".css" = ch '.' :: bs "css" by decide]⟩
      · rw [(C84_extension _).1 hd] at h
        exact absurd h (by decide)
    · rintro ⟨a, ha⟩
      rw [← ha, show bs ".css" = ch '.' :: bs "css" by decide, ext_of _ _ dot_css]
  have hcss : ((files.filter fun f => decide (extension f.1 = bs "css")).map (·.2)).flatten = css := by
    rw [hc]
    congr 2
    exact List.filter_congr fun f _ => hf f
  intro served
  simp only [styleDir, hcss]
  constructor
  · rw [style_dir, e, hashName_hashed _ _ _ _ dot_css]
    show (compress E _ _ served).1 _ served = _
    rw [compress_self]
    exact (move_same _ _ _ _).trans (put_same _ _ _ _)
  · intro s hs x y hw hi hy
    rw [style_script E scripts w _ _ _ _ hn hs, hw, Option.getD_some]
    have hh : hashName E (d ++ bs ".css") (E.minify (bs "css") css) = served := by rw [e, hashName_hashed _ _ _ _ dot_css]
    rw [hh, replaceAll, replaceAllLoop, hi]
    simp only []
    rw [List.append_assoc x, List.take_left' rfl, ← List.append_assoc x, List.drop_left' (by simp), replaceAllLoop_none _ _ _ hy]

example := C133_style_dir_partial ⟨fun _ x => x, fun x => BitVec.ofNat 32 x.length, [], fun _ => [], id⟩ [bs "main.js", bs "b.js"]
  (by decide +kernel) (fun d n => if d = .gui ∧ n = bs "main.js" then some (bs "load('blue.css')") else none) (bs "blue")
  [(bs "a.css", bs "p{}"), (bs "a.txt", bs "no"), (bs "b.css", bs "q{}")] (bs "p{}q{}") (by decide +kernel)

end Memar.Www.Assets

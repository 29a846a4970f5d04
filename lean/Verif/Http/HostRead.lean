import Verif.Http.ExchangeProps
import Verif.Http.ServicesProps
import Verif.Uri.MarshalProps

/-!
# The host check for requests as they are read: C313

C15 is about the host of a request; here it is the host that a request has after its target was read from the bytes received.
-/

namespace Memar.Http
open Memar

variable {S E : Type}

/-! ## Model -/

/-- What happens to the URI of a request that is used again and again: net/uri/uri.go:34-46 `Reinit` and net/uri/uri.go:121-126 `UnmarshalFrom`. -/
inductive TargetOp where
  | reinit
  | read (data : Bytes)
  deriving DecidableEq, Repr

/-- net/uri/uri.go:34-46,121-126: one of them; `none` is a panic. -/
def targetStep (u : Uri.URI) : TargetOp → Option Uri.URI
  | .reinit => some u.reinit
  | .read data => (u.unmarshalFrom data).map (·.1)

/-- net/uri/uri.go:34-46,121-126: any number of them, one after another. -/
def targetRun (u : Uri.URI) : List TargetOp → Option Uri.URI
  | [] => some u
  | op :: ops => (targetStep u op).bind fun u' => targetRun u' ops

/-! ## Proofs -/

private theorem onSlash_host {s : Bytes} {origin : Bool} {i : Nat} {st st' : Uri.Scan} (h : Uri.onSlash s origin i st = some st') :
    st'.u.au.host = st.u.au.host := by
  unfold Uri.onSlash at h
  split at h
  · obtain ⟨a, _, rfl⟩ := Option.map_eq_some_iff.mp h; rfl
  · split at h
    · obtain ⟨a, _, rfl⟩ := Option.map_eq_some_iff.mp h; rfl
    · cases h; rfl

private theorem onQuestion_host {s : Bytes} {i : Nat} {st st' : Uri.Scan} (h : Uri.onQuestion s i st = some st') : st'.u.au.host = st.u.au.host := by
  unfold Uri.onQuestion at h
  split at h
  · obtain ⟨a, _, rfl⟩ := Option.map_eq_some_iff.mp h; rfl
  · cases h; rfl

private theorem onNumber_host {s : Bytes} {i : Nat} {st st' : Uri.Scan} (h : Uri.onNumber s i st = some st') : st'.u.au.host = st.u.au.host := by
  unfold Uri.onNumber at h
  split at h
  · split at h
    · obtain ⟨a, _, rfl⟩ := Option.map_eq_some_iff.mp h; rfl
    · obtain ⟨a, _, rfl⟩ := Option.map_eq_some_iff.mp h; rfl
  · cases h; rfl

private theorem scan_host (s : Bytes) (origin : Bool) (k : Nat) : ∀ (i : Nat) (st : Uri.Scan), s.length - i ≤ k → ∀ st' e, Uri.scan s origin i st = some (st', e) →
    st'.u.au.host = st.u.au.host := by
  induction k with
  | zero =>
    intro i st hk st' e h
    have hn : s[i]? = none := List.getElem?_eq_none (by omega)
    unfold Uri.scan at h
    split at h
    · cases h; rfl
    · rename_i c hc; rw [hn] at hc; cases hc
  | succ k ih =>
    intro i st hk st' e h
    unfold Uri.scan at h
    split at h
    · cases h; rfl
    · rename_i c hc
      have hi := (List.getElem?_eq_some_iff.mp hc).1
      split at h
      · split at h
        · exact ih _ { st with aS := i + 3, u := { st.u with scheme := s.take i } } (by omega) _ _ h
        · exact ih _ _ (by omega) _ _ h
      · split at h
        · split at h
          · cases h
          · rename_i st1 h1
            rw [ih _ _ (by omega) _ _ h, onSlash_host h1]
        · split at h
          · split at h
            · cases h
            · rename_i st1 h1
              rw [ih _ _ (by omega) _ _ h, onQuestion_host h1]
          · split at h
            · split at h
              · cases h
              · rename_i st1 h1
                rw [ih _ _ (by omega) _ _ h, onNumber_host h1]
            · split at h
              · cases h; rfl
              · exact ih _ _ (by omega) _ _ h

private theorem finish_host {s : Bytes} {st : Uri.Scan} {e : Nat} {u : Uri.URI} (h : Uri.finish s st e = some u) : u.au.host = st.u.au.host := by
  unfold Uri.finish at h
  obtain ⟨u2, h2, h3⟩ := Option.bind_eq_some_iff.mp h
  obtain ⟨u1, h1, h2⟩ := Option.bind_eq_some_iff.mp h2
  have e1 : u1.au.host = st.u.au.host := by
    unfold Uri.endPath at h1
    split at h1
    · obtain ⟨a, _, rfl⟩ := Option.map_eq_some_iff.mp h1; rfl
    · cases h1; rfl
  have e2 : u2.au.host = u1.au.host := by
    unfold Uri.endFragment at h2
    split at h2
    · obtain ⟨a, _, rfl⟩ := Option.map_eq_some_iff.mp h2; rfl
    · cases h2; rfl
  have e3 : u.au.host = u2.au.host := by
    unfold Uri.endQuery at h3
    split at h3
    · obtain ⟨a, _, rfl⟩ := Option.map_eq_some_iff.mp h3; rfl
    · cases h3; rfl
  rw [e3, e2, e1]

private theorem read_host {u u' : Uri.URI} {data : Bytes} {e : Nat} (h : Uri.unmarshalFromString u data = some (u', e)) : u'.au.host = u.au.host := by
  unfold Uri.unmarshalFromString at h
  split at h
  · cases h
  · split at h
    · obtain ⟨t, _, ht⟩ := Option.map_eq_some_iff.mp h
      cases ht; rfl
    · split at h
      · cases h
      · rename_i st e' hs
        split at h
        · cases h
        · rename_i u1 hf
          obtain ⟨t, _, ht⟩ := Option.map_eq_some_iff.mp h
          cases ht
          exact (finish_host hf).trans (scan_host data _ _ _ _ (Nat.le_refl _) _ _ hs)

/-- The host of a request that was only ever read is empty. -/
theorem targetRun_host (ops : List TargetOp) (u u' : Uri.URI) (hu : u.au.host = []) (h : targetRun u ops = some u') : u'.au.host = [] := by
  induction ops generalizing u with
  | nil => cases h; exact hu
  | cons op ops ih =>
    simp only [targetRun, Option.bind_eq_some_iff] at h
    obtain ⟨u1, h1, h2⟩ := h
    refine ih u1 ?_ h2
    cases op with
    | reinit => cases h1; rfl
    | read data =>
      simp only [targetStep, Uri.URI.unmarshalFrom, Option.map_eq_some_iff] at h1
      obtain ⟨⟨u2, rest⟩, h1, rfl⟩ := h1
      split at h1
      · cases h1
      · rename_i u3 e hr
        obtain ⟨r, _, hx⟩ := Option.map_eq_some_iff.mp h1
        cases hx
        exact (read_host hr).trans hu

/-- C313 violated: only requests for the configured domain are served. Whatever bytes were read as the target of a request, however often the request was used before, and
whatever Host line it has, the host check of every domain lets it pass: it is neither refused nor redirected. -/
theorem C313_every_host_violated (ops : List TargetOp) (u : Uri.URI) (h : targetRun {} ops = some u) (domain method : Bytes) (hd : Header) (res : Response) :
    hostSupported domain (requestOf method u) res = some (true, res) ∧ hostSupported domain (requestOf method (checkHost u hd)) res = some (true, res) := by
  have hh := targetRun_host ops _ _ rfl h
  have hc : (checkHost u hd).au.host = [] := by
    unfold checkHost
    split
    · exact hh
    · exact hh
  exact ⟨by simp only [hostSupported, requestOf, hh], by simp only [hostSupported, requestOf, hc]⟩

/-- C313 violated: a request in absolute form for another host is not served. It is served as one for the configured domain, by the service of its path, although its host
was read. -/
theorem C313_foreign_served_violated (env : Env S E) (dev : Bool) (domain method scheme host : Bytes) (t : Uri.Tail) (rest : Bytes)
    (hne : scheme ≠ []) (hs : Uri.Avoids scheme ":/?# ") (hstar : scheme.head? ≠ some (ch '*')) (ha : Uri.Avoids host "/?# ") (ht : t.WellFormed)
    (hf : t.PlainFragment) (hr : Uri.Ends rest) (hforeign : host ≠ domain) (hnone : host ≠ []) (res : Response) :
    ∃ u, targetRun {} [.read (Uri.absoluteForm scheme host t ++ rest)] = some u ∧ u.au.authority = host ∧ u.au.authority ≠ domain ∧ u.path = t.path ∧
      serveV1 env dev domain (requestOf method u) res = dispatchV1 env (requestOf method u) res := by
  have hx := Uri.C96_absolute_form_partial {} scheme host t rest hne hs hstar ha ht hf hr
  have hrun : targetRun {} [.read (Uri.absoluteForm scheme host t ++ rest)] =
      some (Uri.URI.holding {} (Uri.absoluteForm scheme host t) scheme host t) := by
    simp only [targetRun, targetStep, Uri.URI.unmarshalFrom, hx, sliceFrom]
    rw [if_pos (by simp)]
    rfl
  refine ⟨_, hrun, rfl, hforeign, rfl, ?_⟩
  unfold serveV1 hostGate
  cases dev
  · simp only [Bool.false_eq_true, if_false, (C313_every_host_violated _ _ hrun domain method ⟨[]⟩ res).1, Bool.not_true]
  · simp only [if_true, Bool.not_true, Bool.false_eq_true, if_false]

/-- **C313**, the part that holds: a request in absolute form for the configured domain goes to the handler of its path, with the response untouched; and if the authority that
was read were split into host and port (`Authority.Init`, which nothing calls), exactly the requests for the domain would pass. Missing: that other requests do not pass
(refuted: `C313_every_host_violated`, `C313_foreign_served_violated`). -/
theorem C313_own_domain_partial (env : Env S E) (dev : Bool) (domain method scheme host : Bytes) (port : Option Bytes) (t : Uri.Tail) (rest : Bytes)
    (hne : scheme ≠ []) (hs : Uri.Avoids scheme ":/?# ") (hstar : scheme.head? ≠ some (ch '*')) (ha : Uri.Avoids (Uri.hostPort host port) "/?# ") (ht : t.WellFormed)
    (hf : t.PlainFragment) (hr : Uri.Ends rest) (hnone : host ≠ []) (hh : Uri.Avoids host ":@") (hp : ∀ p, port = some p → Uri.Avoids p "@")
    (hd : ¬ Spec.NumericHost domain) (hw : ¬ ∃ e, e ≠ [] ∧ domain = Spec.wwwOf e) (res : Response) :
    ∃ u, targetRun {} [.read (Uri.absoluteForm scheme (Uri.hostPort host port) t ++ rest)] = some u ∧
      (host = domain → serveV1 env dev domain (requestOf method u) res = dispatchV1 env (requestOf method u) res) ∧
      (hostSupported domain (requestOf method { u with au := u.au.init u.au.authority }) res = some (true, res) ↔ host = domain) := by
  have hx := Uri.C96_absolute_form_partial {} scheme (Uri.hostPort host port) t rest hne hs hstar ha ht hf hr
  have hrun : targetRun {} [.read (Uri.absoluteForm scheme (Uri.hostPort host port) t ++ rest)] =
      some (Uri.URI.holding {} (Uri.absoluteForm scheme (Uri.hostPort host port) t) scheme (Uri.hostPort host port) t) := by
    simp only [targetRun, targetStep, Uri.URI.unmarshalFrom, hx, sliceFrom]
    rw [if_pos (by simp)]
    rfl
  refine ⟨_, hrun, fun _ => ?_, ?_⟩
  · unfold serveV1 hostGate
    cases dev
    · simp only [Bool.false_eq_true, if_false, (C313_every_host_violated _ _ hrun domain method ⟨[]⟩ res).1, Bool.not_true]
    · simp only [if_true, Bool.not_true, Bool.false_eq_true, if_false]
  · generalize hu : Uri.URI.holding {} (Uri.absoluteForm scheme (Uri.hostPort host port) t) scheme (Uri.hostPort host port) t = u
    have hau : u.au.authority = Uri.hostPort host port := by rw [← hu]; rfl
    have hhost : (requestOf method { u with au := u.au.init u.au.authority }).host = host := by
      show (u.au.init u.au.authority).host = host
      rw [hau, Uri.C100_host_port_partial u.au host port hnone hh hp]
    constructor
    · intro h
      rcases (C15_pass_only_own_domain _ _ _ _ h).1 with h | h
      · rw [hhost] at h; exact absurd h hnone
      · rw [hhost] at h; exact h
    · intro h
      exact C15_own_domain_passes domain _ res hd hw (.inr (hhost.trans h))

/-- The state of the parser with other raw bytes in its URI. -/
private def withRaw (x : Option Bytes) (st : Uri.Scan) : Uri.Scan := { st with u := { st.u with raw := x } }

private theorem onSlash_raw (s : Bytes) (origin : Bool) (i : Nat) (st : Uri.Scan) (x : Option Bytes) :
    Uri.onSlash s origin i (withRaw x st) = (Uri.onSlash s origin i st).map (withRaw x) := by
  unfold Uri.onSlash withRaw
  by_cases h1 : st.aS ≠ 0 ∧ st.pS = 0
  · erw [if_pos h1, if_pos h1]; cases slice s st.aS i <;> rfl
  · erw [if_neg h1, if_neg h1]
    by_cases h2 : origin = false ∧ st.pS = 0 ∧ i ≠ 0
    · erw [if_pos h2, if_pos h2]; cases slice s 0 i <;> rfl
    · erw [if_neg h2, if_neg h2]; rfl

private theorem onQuestion_raw (s : Bytes) (i : Nat) (st : Uri.Scan) (x : Option Bytes) :
    Uri.onQuestion s i (withRaw x st) = (Uri.onQuestion s i st).map (withRaw x) := by
  unfold Uri.onQuestion withRaw
  by_cases h1 : st.qI = 0
  · erw [if_pos h1, if_pos h1]; cases slice s st.pS i <;> rfl
  · erw [if_neg h1, if_neg h1]; rfl

private theorem onNumber_raw (s : Bytes) (i : Nat) (st : Uri.Scan) (x : Option Bytes) :
    Uri.onNumber s i (withRaw x st) = (Uri.onNumber s i st).map (withRaw x) := by
  unfold Uri.onNumber withRaw
  by_cases h1 : st.nI = 0
  · erw [if_pos h1, if_pos h1]
    by_cases h2 : st.qI = 0
    · erw [if_pos h2, if_pos h2]; cases slice s st.pS i <;> rfl
    · erw [if_neg h2, if_neg h2]; cases slice s (st.qI + 1) i <;> rfl
  · erw [if_neg h1, if_neg h1]; rfl

private theorem scan_raw (s : Bytes) (origin : Bool) (x : Option Bytes) (k : Nat) : ∀ (i : Nat) (st : Uri.Scan), s.length - i ≤ k →
    Uri.scan s origin i (withRaw x st) = (Uri.scan s origin i st).map fun r => (withRaw x r.1, r.2) := by
  induction k with
  | zero =>
    intro i st hk
    have hn : s[i]? = none := List.getElem?_eq_none (by omega)
    rw [Uri.scan.eq_def s origin i (withRaw x st), Uri.scan.eq_def s origin i st]
    split
    · rfl
    · rename_i c hc; rw [hn] at hc; cases hc
  | succ k ih =>
    intro i st hk
    rw [Uri.scan.eq_def s origin i (withRaw x st), Uri.scan.eq_def s origin i st]
    split
    · rfl
    · rename_i c hc
      have hi := (List.getElem?_eq_some_iff.mp hc).1
      simp only [onSlash_raw, onQuestion_raw, onNumber_raw, show (withRaw x st).aS = st.aS from rfl]
      by_cases c1 : c = ch ':'
      · rw [if_pos c1, if_pos c1]
        by_cases c2 : st.aS = 0
        · rw [if_pos c2, if_pos c2]
          exact ih (i + 3) { st with aS := i + 3, u := { st.u with scheme := s.take i } } (by omega)
        · rw [if_neg c2, if_neg c2]
          exact ih _ _ (by omega)
      rw [if_neg c1, if_neg c1]
      by_cases c2 : c = ch '/'
      · rw [if_pos c2, if_pos c2]
        cases Uri.onSlash s origin i st with
        | none => rfl
        | some st1 => exact ih _ _ (by omega)
      rw [if_neg c2, if_neg c2]
      by_cases c3 : c = ch '?'
      · rw [if_pos c3, if_pos c3]
        cases Uri.onQuestion s i st with
        | none => rfl
        | some st1 => exact ih _ _ (by omega)
      rw [if_neg c3, if_neg c3]
      by_cases c4 : c = ch '#'
      · rw [if_pos c4, if_pos c4]
        cases Uri.onNumber s i st with
        | none => rfl
        | some st1 => exact ih _ _ (by omega)
      rw [if_neg c4, if_neg c4]
      by_cases c5 : c = ch ' '
      · rw [if_pos c5, if_pos c5]; rfl
      · rw [if_neg c5, if_neg c5]
        exact ih _ _ (by omega)

private theorem finish_raw (s : Bytes) (st : Uri.Scan) (e : Nat) (x : Option Bytes) :
    Uri.finish s (withRaw x st) e = (Uri.finish s st e).map fun u => { u with raw := x } := by
  have h1 : ∀ u : Uri.URI, Uri.endPath s (withRaw x st) e { u with raw := x } = (Uri.endPath s st e u).map fun u => { u with raw := x } := by
    intro u
    unfold Uri.endPath withRaw
    by_cases h : st.qI = 0 ∧ st.nI = 0
    · erw [if_pos h, if_pos h]; cases slice s st.pS e <;> rfl
    · erw [if_neg h, if_neg h]; rfl
  have h2 : ∀ u : Uri.URI, Uri.endFragment s (withRaw x st) e { u with raw := x } = (Uri.endFragment s st e u).map fun u => { u with raw := x } := by
    intro u
    unfold Uri.endFragment withRaw
    by_cases h : st.nI ≠ 0
    · erw [if_pos h, if_pos h]; cases slice s (st.nI + 1) e <;> rfl
    · erw [if_neg h, if_neg h]; rfl
  have h3 : ∀ u : Uri.URI, Uri.endQuery s (withRaw x st) e { u with raw := x } = (Uri.endQuery s st e u).map fun u => { u with raw := x } := by
    intro u
    unfold Uri.endQuery withRaw
    by_cases h : st.qI ≠ 0 ∧ st.nI = 0
    · erw [if_pos h, if_pos h]; cases slice s (st.qI + 1) e <;> rfl
    · erw [if_neg h, if_neg h]; rfl
  unfold Uri.finish
  rw [show (withRaw x st).u = { st.u with raw := x } from rfl, h1]
  cases Uri.endPath s st e st.u with
  | none => rfl
  | some u1 =>
    simp only [Option.map_some, Option.bind_some, h2]
    cases Uri.endFragment s st e u1 with
    | none => rfl
    | some u2 => simp only [Option.map_some, Option.bind_some, h3]

/-- What a URI held as raw bytes makes no difference to reading it. -/
private theorem read_raw (u : Uri.URI) (x : Option Bytes) (s : Bytes) : Uri.unmarshalFromString { u with raw := x } s = Uri.unmarshalFromString u s := by
  unfold Uri.unmarshalFromString
  split
  · rfl
  · rename_i c _
    split
    · rfl
    · rw [show ({ u := { u with raw := x } } : Uri.Scan) = withRaw x { u := u } from rfl, scan_raw s _ x _ 0 _ (Nat.le_refl _)]
      cases Uri.scan s (decide (c = ch '/')) 0 { u := u } with
      | none => rfl
      | some r =>
        simp only [Option.map_some, finish_raw]
        cases Uri.finish s r.1 r.2 with
        | none => rfl
        | some u1 => rfl

/-- **C313**: a request that was used before and is initialised again is read as a new one, whatever was read before: nothing of an earlier target is left. -/
theorem C313_used_again (u : Uri.URI) (data : Bytes) : targetRun u [.reinit, .read data] = targetRun {} [.read data] := by
  have h : Uri.unmarshalFromString u.reinit data = Uri.unmarshalFromString {} data := read_raw {} (some []) data
  simp only [targetRun, targetStep, Option.bind_some, Uri.URI.unmarshalFrom, h]

/-! ## Non-vacuity -/

private def exTail : Uri.Tail := ⟨bs "/x", some (bs "q=1"), none⟩

private theorem exWell : exTail.WellFormed := ⟨by decide, by decide, by intro q h; cases h; decide, by intro f h; cases h⟩

example := C313_foreign_served_violated demoEnv false (bs "sabz.city") (bs "GET") (bs "https") (bs "evil.com:80") exTail (bs " HTTP/1.1") (by decide) (by decide) (by decide)
  (by decide) exWell (by intro h; cases h) (.inr rfl) (by decide +kernel) (by decide +kernel) Response.init
example : (targetRun {} [.read (bs "https://evil.com/a HTTP/1.1"), .reinit, .read (bs "/b?c ")]).map (fun u => (u.path, u.query)) = some (bs "/b", bs "c") := by decide +kernel
example := C313_every_host_violated [.read (bs "http://10.0.0.1/a"), .reinit, .read (bs "https://www.sabz.city/b ")] _
  (Option.some_get (show (targetRun {} [.read (bs "http://10.0.0.1/a"), .reinit, .read (bs "https://www.sabz.city/b ")]).isSome by decide +kernel)).symm (bs "sabz.city")
example := C313_used_again { path := bs "/old", query := bs "q", fragment := bs "f", scheme := bs "http" } (bs "/new ")
example := C313_own_domain_partial demoEnv false (bs "sabz.city") (bs "GET") (bs "https") (bs "sabz.city") (some (bs "443")) exTail (bs " HTTP/1.1") (by decide) (by decide)
  (by decide) (by decide) exWell (by intro h; cases h) (.inr rfl) (by decide) (by decide) (by intro p h; cases h; decide) (by decide +kernel)
  (by rintro ⟨e, _, h⟩; have := congrArg List.head? h; revert this; simp [Spec.wwwOf, bs]) Response.init

end Memar.Http

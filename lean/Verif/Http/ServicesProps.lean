import Verif.Http.Services
import Verif.Http.HeaderProps

/-! # C15, C16, C52: host check, multiplexer and pipeline -/

namespace Memar.Http
open Memar Spec

/-! ## Specification -/

namespace Spec

/-- The host starts with a decimal digit (taken for an IP address). -/
def NumericHost (host : Bytes) : Prop := ∃ b r, host = b :: r ∧ 48 ≤ b.toNat ∧ b.toNat ≤ 57

/-- The `www.` alias of a name. -/
def wwwOf (domain : Bytes) : Bytes := bs "www." ++ domain

/-- https on the domain with the same path and query. -/
def httpsURL (domain path query : Bytes) : Bytes :=
  bs "https://" ++ domain ++ path ++ (match query with | [] => [] | q => bs "?" ++ q)

/-- `res'` is `res` turned into a permanent redirect to `target`: every header that the redirect
does not own reads as before. -/
structure IsPermanentRedirect (res res' : Response) (target : Bytes) : Prop where
  status : res'.statusCode = bs "301" ∧ res'.reasonPhrase = bs "Moved Permanently"
  location : res'.header.get (bs "Location") = target
  cache : res'.header.get (bs "Cache-Control") = bs "max-age=31536000, immutable"
  others : ∀ k, k ≠ bs "Location" → k ≠ bs "Cache-Control" → res'.header.get k = res.header.get k
  version : res'.version = res.version

/-- The response has no such header line yet (true of every fresh response). -/
def Lacks (res : Response) (key : Bytes) : Prop := ∀ p ∈ res.header.lines, p.1 ≠ key

end Spec

instance (host : Bytes) : Decidable (NumericHost host) :=
  match host with
  | [] => isFalse (by rintro ⟨_, _, h, _⟩; cases h)
  | b :: r => decidable_of_iff (48 ≤ b.toNat ∧ b.toNat ≤ 57)
      ⟨fun h => ⟨b, r, rfl, h⟩, by rintro ⟨_, _, h, h2⟩; cases h; exact h2⟩

/-! ## helpers -/

theorem digit_cmp : ∀ b : Byte, (ch '0' ≤ b ∧ b ≤ ch '9') ↔ (48 ≤ b.toNat ∧ b.toNat ≤ 57) := by
  decide +kernel

theorem numeric_cons (b : Byte) (r : Bytes) : NumericHost (b :: r) ↔ (ch '0' ≤ b ∧ b ≤ ch '9') := by
  rw [digit_cmp]
  constructor
  · rintro ⟨_, _, h, h2⟩; cases h; exact h2
  · intro h; exact ⟨b, r, rfl, h⟩

theorem redirectTarget_eq (d p q : Bytes) : redirectTarget d p q = httpsURL d p q := by
  cases q <;> simp [redirectTarget, httpsURL]

theorem hset_absent (r : Response) (k v : Bytes) (h : Lacks r k) :
    r.hset k v = some { r with header := r.header.add k v } := by
  have hn : ¬ ∃ p ∈ r.header.lines, p.1 = k := by rintro ⟨p, hp, e⟩; exact h p hp e
  simp [Response.hset, C14_set_exact_partial, hn]

theorem permanentRedirect_spec (res : Response) (t : Bytes) (h1 : Lacks res (bs "Location"))
    (h2 : Lacks res (bs "Cache-Control")) :
    ∃ r, permanentRedirect res t = some r ∧ IsPermanentRedirect res r t := by
  have hne : bs "Location" ≠ bs "Cache-Control" := by decide
  have hl2 : Lacks { res.setStatus (bs "301") (bs "Moved Permanently") with
      header := res.header.add (bs "Location") t } (bs "Cache-Control") := by
    intro p hp
    simp only [Header.add, List.mem_append, List.mem_singleton] at hp
    rcases hp with hp | hp
    · exact h2 p hp
    · rw [hp]; exact hne
  have e : permanentRedirect res t = some { res.setStatus (bs "301") (bs "Moved Permanently") with
      header := (res.header.add (bs "Location") t).add (bs "Cache-Control") (bs "max-age=31536000, immutable") } := by
    unfold permanentRedirect
    simp only
    rw [hset_absent _ _ _ (by exact h1)]
    exact hset_absent _ _ _ hl2
  have v0 : ∀ (l : List KV) (k : Bytes), (∀ p ∈ l, p.1 ≠ k) → valuesOf l k = [] := by
    intro l k h
    simp only [valuesOf, List.filterMap_eq_nil_iff]
    intro p hp; rw [if_neg (h p hp)]
  have hdr : ∀ k, valuesOf ((res.header.add (bs "Location") t).add (bs "Cache-Control")
      (bs "max-age=31536000, immutable")).lines k = valuesOf res.header.lines k ++
        ((if bs "Location" = k then [t] else []) ++
         (if bs "Cache-Control" = k then [bs "max-age=31536000, immutable"] else [])) := by
    intro k
    simp only [Header.add, valuesOf_append, List.append_assoc]
    congr 1
    by_cases a : bs "Location" = k <;> by_cases b : bs "Cache-Control" = k <;> simp [valuesOf, a, b]
  refine ⟨_, e, ⟨⟨rfl, rfl⟩, ?_, ?_, ?_, rfl⟩⟩
  · show Header.get _ _ = _
    rw [get_eq, firstValue, hdr, v0 _ _ h1, if_pos rfl]; rfl
  · show Header.get _ _ = _
    rw [get_eq, firstValue, hdr, v0 _ _ h2, if_neg hne, if_pos rfl]; rfl
  · intro k hk1 hk2
    show Header.get _ _ = _
    rw [get_eq, firstValue, hdr, if_neg (Ne.symm hk1), if_neg (Ne.symm hk2), get_eq, firstValue]
    simp

theorem hostSupported_cases (d : Bytes) (req : Request) (res : Response) :
    hostSupported d req res =
      if req.host = [] then some (true, res)
      else if NumericHost req.host then
        (permanentRedirect res (httpsURL d req.path req.query)).map fun r => (false, r)
      else if 4 < req.host.length ∧ req.host.take 4 = bs "www." then
        if req.host = wwwOf d then
          (permanentRedirect res (httpsURL d req.path req.query)).map fun r => (false, r)
        else some (false, res)
      else if req.host = d then some (true, res) else some (false, res) := by
  unfold hostSupported
  cases hh : req.host with
  | nil => simp
  | cons b r =>
    simp only [List.cons_ne_nil, if_false]
    by_cases hn : NumericHost (b :: r)
    · rw [if_pos ((numeric_cons b r).mp hn), if_pos hn, redirectTarget_eq]
      cases permanentRedirect res (httpsURL d req.path req.query) <;> rfl
    · rw [if_neg (fun h => hn ((numeric_cons b r).mpr h)), if_neg hn]
      by_cases hw : 4 < (b :: r).length ∧ (b :: r).take 4 = bs "www."
      · rw [if_pos hw, if_pos hw]
        have hd : (b :: r).drop 4 = d ↔ (b :: r) = wwwOf d := by
          constructor
          · intro h
            have h' := List.take_append_drop 4 (b :: r)
            rw [hw.2, h] at h'
            exact h'.symm
          · intro h; rw [h]; rfl
        by_cases he : (b :: r) = wwwOf d
        · rw [if_neg (by simpa using hd.mpr he), if_pos he, redirectTarget_eq]
          cases permanentRedirect res (httpsURL d req.path req.query) <;> rfl
        · rw [if_pos (fun h => he (hd.mp h)), if_neg he]
      · rw [if_neg hw, if_neg hw]
        by_cases he : (b :: r) = d
        · rw [if_neg (by simp [he]), if_pos he]
        · rw [if_pos he, if_neg he]

/-! ## C15 -/

/-- C15: only requests without a host or for the configured domain pass, and passing changes nothing. -/
theorem C15_pass_only_own_domain (d : Bytes) (req : Request) (res res' : Response)
    (h : hostSupported d req res = some (true, res')) :
    (req.host = [] ∨ req.host = d) ∧ res' = res := by
  rw [hostSupported_cases] at h
  by_cases h0 : req.host = []
  · rw [if_pos h0] at h; simp at h; exact ⟨.inl h0, h.symm⟩
  · rw [if_neg h0] at h
    by_cases h1 : NumericHost req.host
    · rw [if_pos h1] at h
      simp at h
    · rw [if_neg h1] at h
      split at h
      · split at h <;> simp at h
      · by_cases h2 : req.host = d
        · rw [if_pos h2] at h; simp at h; exact ⟨.inr h2, h.symm⟩
        · rw [if_neg h2] at h; simp at h

/-- C15: a request for the configured domain does pass, provided the domain is an ordinary name
(does not start with a digit and is not itself a `www.` name). -/
theorem C15_own_domain_passes (d : Bytes) (req : Request) (res : Response)
    (hd : ¬ NumericHost d) (hw : ¬ ∃ e, e ≠ [] ∧ d = wwwOf e) (h : req.host = [] ∨ req.host = d) :
    hostSupported d req res = some (true, res) := by
  rw [hostSupported_cases]
  rcases h with h | h
  · rw [if_pos h]
  · rw [h]
    by_cases h0 : d = []
    · rw [if_pos h0]
    · rw [if_neg h0, if_neg hd, if_neg, if_pos rfl]
      rintro ⟨h1, h2⟩
      apply hw
      refine ⟨d.drop 4, ?_, ?_⟩
      · intro h3; rw [List.drop_eq_nil_iff] at h3; omega
      · rw [wwwOf, ← h2, List.take_append_drop]

/-- C15: a numeric host, or the `www.` alias of the domain, is answered with a permanent redirect to
https on the domain, preserving path and query (on a response without these headers). -/
theorem C15_redirects (d : Bytes) (req : Request) (res : Response)
    (h1 : Lacks res (bs "Location")) (h2 : Lacks res (bs "Cache-Control"))
    (h : NumericHost req.host ∨ (d ≠ [] ∧ req.host = wwwOf d)) :
    ∃ r, hostSupported d req res = some (false, r) ∧
      IsPermanentRedirect res r (httpsURL d req.path req.query) := by
  obtain ⟨r, e, hr⟩ := permanentRedirect_spec res (httpsURL d req.path req.query) h1 h2
  refine ⟨r, ?_, hr⟩
  rw [hostSupported_cases]
  rcases h with h | ⟨hd, h⟩
  · have : req.host ≠ [] := by rintro h'; rw [h'] at h; obtain ⟨_, _, h, _⟩ := h; cases h
    rw [if_neg this, if_pos h, e]; rfl
  · have hn : ¬ NumericHost (wwwOf d) := by
      rintro ⟨b, r, h, h2⟩
      have : b = ch 'w' := by
        have := congrArg (fun l => l.head?) h
        simp [wwwOf, bs] at this
        exact this.symm
      subst this
      revert h2; decide
    have hl : 4 < (wwwOf d).length ∧ (wwwOf d).take 4 = bs "www." := by
      constructor
      · have : 0 < d.length := List.length_pos_iff.mpr hd
        simp [wwwOf, show (bs "www.").length = 4 from by decide]; exact this
      · rfl
    rw [h, if_neg (by simp [wwwOf, bs]), if_neg hn, if_pos hl, if_pos rfl, e]; rfl

/-- C15: any other host is rejected with the response untouched — in particular without redirect. -/
theorem C15_other_hosts_rejected (d : Bytes) (req : Request) (res : Response)
    (h0 : req.host ≠ []) (h1 : ¬ NumericHost req.host) (h2 : req.host ≠ wwwOf d) (h3 : req.host ≠ d) :
    hostSupported d req res = some (false, res) := by
  rw [hostSupported_cases, if_neg h0, if_neg h1]
  rw [if_neg h2, if_neg h3, ite_self]

/-- C252, an exception: when the configured domain starts with a digit, a request for exactly that
domain is redirected to itself (with the same path and query) and never passes. -/
theorem C252_numeric_domain_redirects_to_itself_violated (d : Bytes) (req : Request)
    (hd : NumericHost d) (h : req.host = d) :
    ∃ r, hostSupported d req Response.init = some (false, r) ∧
      IsPermanentRedirect Response.init r (httpsURL req.host req.path req.query) := by
  have hl1 : Lacks Response.init (bs "Location") := by unfold Lacks; decide +kernel
  have hl2 : Lacks Response.init (bs "Cache-Control") := by unfold Lacks; decide +kernel
  have := C15_redirects d req Response.init hl1 hl2 (.inl (by rw [h]; exact hd))
  rw [h]; exact this

example : ¬ NumericHost (bs "a.org") ∧ (¬ ∃ e, e ≠ [] ∧ bs "a.org" = wwwOf e) ∧ NumericHost (bs "10.0.0.1") ∧
    NumericHost (bs "1a.org") ∧ bs "b.org" ≠ wwwOf (bs "a.org") := by
  refine ⟨by decide, ?_, by decide, by decide, by decide⟩
  rintro ⟨e, _, h⟩
  have := congrArg List.head? h
  simp [wwwOf, bs] at this

example : Lacks Response.init (bs "Location") ∧ Lacks Response.init (bs "Cache-Control") := by
  unfold Lacks; decide +kernel

/-! ## C16 -/

variable {S E : Type}

theorem hset_total (r : Response) (k v : Bytes) : ∃ h, r.hset k v = some { r with header := h } := by
  simp [Response.hset, C14_set_exact_partial]

theorem setError_total (env : Env S E) (r : Response) (e : E) :
    ∃ h, r.setError env e = some { r with header := h } := hset_total r _ _

/-- C16: a service runs exactly when the method is POST and the query parses to the identifier of a
registered service; then exactly that service runs, once. -/
theorem C16_dispatch_iff (env : Env S E) (parse : Bytes → Option (Except E U64)) (req : Request)
    (res : Response) (o : Outcome S E) (h : mux env parse req res = some o) (s : S) :
    (s ∈ o.ran ↔ o.ran = [s]) ∧
    (o.ran = [s] ↔ req.method = bs "POST" ∧ ∃ id, parse req.query = some (.ok id) ∧
      env.getServiceByID id = .ok s) := by
  unfold mux at h
  by_cases hm : req.method = bs "POST"
  · rw [if_neg (by simpa using hm)] at h
    cases hp : parse req.query with
    | none => rw [hp] at h; exact absurd h (by simp)
    | some p =>
      rw [hp] at h
      cases p with
      | error e =>
        obtain ⟨h', e'⟩ := setError_total env (res.setStatus (bs "400") (bs "Bad Request")) e
        simp only [Option.bind_eq_bind, Option.bind_some, e', Option.some.injEq] at h
        subst h
        simp
      | ok id =>
        cases hg : env.getServiceByID id with
        | error e =>
          obtain ⟨h', e'⟩ := setError_total env (res.setStatus (bs "404") (bs "Not Found")) env.errNotFound
          simp only [Option.bind_eq_bind, Option.bind_some, hg, e', Option.some.injEq] at h
          subst h
          simp [hg]
        | ok sv =>
          obtain ⟨h', e'⟩ := hset_total res (bs "X-Robots-Tag") (bs "noindex")
          simp only [Option.bind_eq_bind, Option.bind_some, hg, e'] at h
          have hr : o.ran = [sv] := by
            split at h
            · cases h; rfl
            · rename_i e _
              obtain ⟨h2, e2⟩ := setError_total env (env.serve sv { res with header := h' }).1 e
              rw [e2] at h; cases h; rfl
          rw [hr]
          refine ⟨⟨fun h => by simp at h; rw [h], fun h => by rw [h]; simp⟩, ?_⟩
          constructor
          · intro h2
            simp at h2; subst h2
            exact ⟨hm, id, rfl, hg⟩
          · rintro ⟨_, id', hid, hg'⟩
            cases hid
            rw [hg] at hg'; cases hg'; rfl
  · rw [if_pos hm] at h
    cases h
    simp [hm]

/-- C16: a wrong method gets 405 and nothing else happens. -/
theorem C16_wrong_method (env : Env S E) (parse : Bytes → Option (Except E U64)) (req : Request)
    (res : Response) (hm : req.method ≠ bs "POST") :
    mux env parse req res = some ⟨{ res with statusCode := bs "405", reasonPhrase := bs "Method Not Allowed" }, none, []⟩ := by
  unfold mux; rw [if_pos hm]; rfl

/-- C16: a query that does not parse gets 400, no service runs, the error is returned. -/
theorem C16_bad_query (env : Env S E) (parse : Bytes → Option (Except E U64)) (req : Request)
    (res : Response) (hm : req.method = bs "POST") (e : E) (hp : parse req.query = some (.error e)) :
    ∃ o, mux env parse req res = some o ∧ o.res.statusCode = bs "400" ∧ o.err = some e ∧ o.ran = [] := by
  unfold mux
  rw [if_neg (by simpa using hm), hp]
  obtain ⟨h', e'⟩ := setError_total env (res.setStatus (bs "400") (bs "Bad Request")) e
  simp only [Option.bind_eq_bind, Option.bind_some, e']
  exact ⟨_, rfl, rfl, rfl, rfl⟩

/-- C16: an unknown service gets 404, no service runs, the registry's error is returned. -/
theorem C16_unknown_service (env : Env S E) (parse : Bytes → Option (Except E U64)) (req : Request)
    (res : Response) (hm : req.method = bs "POST") (id : U64) (e : E)
    (hp : parse req.query = some (.ok id)) (hg : env.getServiceByID id = .error e) :
    ∃ o, mux env parse req res = some o ∧ o.res.statusCode = bs "404" ∧ o.err = some e ∧ o.ran = [] := by
  unfold mux
  rw [if_neg (by simpa using hm), hp]
  obtain ⟨h', e'⟩ := setError_total env (res.setStatus (bs "404") (bs "Not Found")) env.errNotFound
  simp only [Option.bind_eq_bind, Option.bind_some, hg, e']
  exact ⟨_, rfl, rfl, rfl, rfl⟩

/-- C181, what the code's parser does: it never reports an error, so for every request whose query is
not valid base64 the documented 400 is replaced by whatever identifier 0 is registered as. -/
theorem C181_malformed_query_is_identifier_zero_violated (env : Env S E) (req : Request) (res : Response)
    (hm : req.method = bs "POST") (hb : env.base64RawURL req.query = some none) :
    (∀ q e, idFromString env q ≠ some (.error e)) ∧
    (∀ s, env.getServiceByID 0 = .ok s →
      ∀ o, mux env (idFromString env) req res = some o → o.ran = [s]) ∧
    (∀ e, env.getServiceByID 0 = .error e →
      ∃ o, mux env (idFromString env) req res = some o ∧ o.res.statusCode = bs "404") := by
  have hp : idFromString env req.query = some (.ok 0) := by simp [idFromString, hb]
  refine ⟨?_, ?_, ?_⟩
  · intro q e
    unfold idFromString
    cases env.base64RawURL q with
    | none => simp
    | some x => cases x <;> simp
  · intro s hs o ho
    exact ((C16_dispatch_iff env _ req res o ho s).2).mpr ⟨hm, 0, hp, hs⟩
  · intro e he
    obtain ⟨o, h1, h2, _⟩ := C16_unknown_service env _ req res hm 0 e hp he
    exact ⟨o, h1, h2⟩

/-- A concrete environment with one service (number 7) for the witnesses below. -/
def demoEnv : Env Nat Nat where
  idAsString _ := bs "1"
  errNotFound := 44
  getServiceByID id := if id = 5 then .ok 7 else .error 9
  getServiceByURI p := if p = bs "/x" then some 7 else none
  serve _ r := (r.setStatus (bs "200") (bs "OK"), none)
  base64RawURL q := if q = bs "BQAAAAAAAAA" then some (some 5) else some none
  serveWWW r := some (r, none)

example : (mux demoEnv (idFromString demoEnv) ⟨bs "POST", [], bs "/s", bs "BQAAAAAAAAA"⟩ Response.init).map
    (fun o => (o.ran, o.res.statusCode)) = some ([7], bs "200") ∧
    (mux demoEnv (idFromString demoEnv) ⟨bs "POST", [], bs "/s", bs "?"⟩ Response.init).map
    (fun o => (o.ran, o.res.statusCode)) = some ([], bs "404") := by decide +kernel

/-! ## C52: the request pipeline -/

/-- The responses sent, in order. -/
def responses : List (Action S) → List Response
  | [] => []
  | .respond r :: l => r :: responses l
  | _ :: l => responses l

theorem responses_append (a b : List (Action S)) : responses (a ++ b) = responses a ++ responses b := by
  induction a with
  | nil => rfl
  | cons x a ih => cases x <;> simp [responses, ih]

theorem responses_ran (l : List S) : responses (l.map (Action.ran (S := S))) = [] := by
  induction l with
  | nil => rfl
  | cons x l ih => simpa [responses] using ih

/-- C52: whenever serving a request completes, exactly one response was sent, and it was the last
action. -/
theorem C52_exactly_one_response (env : Env S E) (dev : Bool) (d : Bytes) (req : Request) (res : Response)
    (acts : List (Action S)) (err : Option E) (h : serveV1 env dev d req res = some (acts, err)) :
    ∃ r pre, acts = pre ++ [.respond r] ∧ responses pre = [] := by
  have hd : ∀ r0, dispatchV1 env req r0 = some (acts, err) →
      ∃ r pre, acts = pre ++ [.respond r] ∧ responses pre = [] := by
    intro r0 h2
    unfold dispatchV1 at h2
    split at h2
    · obtain ⟨o, h3, h4⟩ := Option.map_eq_some_iff.mp h2
      cases h4
      exact ⟨o.res, _, rfl, responses_ran _⟩
    · split at h2
      · cases h2; exact ⟨r0, [], rfl, rfl⟩
      · split at h2
        · obtain ⟨⟨r, e⟩, h3, h4⟩ := Option.map_eq_some_iff.mp h2
          cases h4
          exact ⟨r, [.www], rfl, rfl⟩
        · cases h2
          exact ⟨_, [.ran _], rfl, rfl⟩
  unfold serveV1 at h
  split at h
  · exact absurd h (by simp)
  · split at h
    · cases h; exact ⟨_, [], rfl, rfl⟩
    · exact hd _ h

/-- C52: in production no handler and no static file is reached unless the host check passes. -/
theorem C52_host_check_guards_handlers (env : Env S E) (d : Bytes) (req : Request) (res : Response)
    (acts : List (Action S)) (err : Option E) (h : serveV1 env false d req res = some (acts, err))
    (hrun : ∃ a ∈ acts, (∃ s, a = .ran s) ∨ a = .www) : req.host = [] ∨ req.host = d := by
  unfold serveV1 at h
  split at h
  · exact absurd h (by simp)
  · rename_i sup r0 h1
    cases sup with
    | true => exact (C15_pass_only_own_domain d req res r0 h1).1
    | false =>
      simp only [Bool.not_false, if_true, Option.some.injEq, Prod.mk.injEq] at h
      rw [← h.1] at hrun
      obtain ⟨a, ha, h3⟩ := hrun
      simp only [List.mem_singleton] at ha
      rcases h3 with ⟨s, h3⟩ | h3 <;> rw [ha] at h3 <;> cases h3

/-- C52: a request for a registered address runs exactly that address's service. -/
theorem C52_registered_address (env : Env S E) (dev : Bool) (d : Bytes) (req : Request) (res : Response)
    (s : S) (hd : dev = true ∨ hostSupported d req res = some (true, res))
    (h1 : req.path ≠ bs "/s") (h2 : req.path ≠ bs "/l") (hs : env.getServiceByURI req.path = some s) :
    serveV1 env dev d req res = some ([.ran s, .respond (env.serve s res).1], (env.serve s res).2) := by
  have e : hostGate dev d req res = some (true, res) := by
    unfold hostGate
    rcases hd with hd | hd
    · rw [hd]; rfl
    · rw [hd]; simp
  simp [serveV1, e, dispatchV1, h1, h2, hs]

example : serveV1 demoEnv false (bs "a.org") ⟨bs "GET", bs "a.org", bs "/x", []⟩ Response.init =
    some ([.ran 7, .respond (Response.init.setStatus (bs "200") (bs "OK"))], none) := by
  refine C52_registered_address demoEnv false _ _ _ 7 (.inr ?_) (by decide) (by decide) (by decide)
  decide +kernel

/-- C52: a request that cannot be read is answered once, with status 400 and no header line of its own, no
handler runs and the error of reading it is returned. -/
theorem C52_unreadable_request (env : Env S E) (dev : Bool) (d : Bytes) (e : E) :
    ∃ r : Response, handleIncome env dev d (.error e) = some ([.respond r], some e) ∧
      r.statusCode = bs "400" ∧ r.reasonPhrase = bs "Bad Request" ∧ ∀ p ∈ r.header.lines, p = ([], []) := by
  refine ⟨_, rfl, rfl, rfl, ?_⟩
  simp [Response.setStatus, Response.init, Header.init]

/-- C52: whatever arrives on a stream, whenever its handling completes exactly one response was sent, as the
last action. -/
theorem C52_every_arrival_answered_once (env : Env S E) (dev : Bool) (d : Bytes) (decoded : Except E Request)
    (acts : List (Action S)) (err : Option E) (h : handleIncome env dev d decoded = some (acts, err)) :
    ∃ r pre, acts = pre ++ [.respond r] ∧ responses pre = [] := by
  cases decoded with
  | error e => cases h; exact ⟨_, [], rfl, rfl⟩
  | ok req => exact C52_exactly_one_response env dev d req _ acts err h

/-- C52: a readable request is served as it was read, on an empty response. -/
theorem C52_readable_request (env : Env S E) (dev : Bool) (d : Bytes) (req : Request) (s : S)
    (hd : dev = true ∨ hostSupported d req Response.init = some (true, Response.init))
    (h1 : req.path ≠ bs "/s") (h2 : req.path ≠ bs "/l") (hs : env.getServiceByURI req.path = some s) :
    handleIncome env dev d (.ok req) =
      some ([.ran s, .respond (env.serve s Response.init).1], (env.serve s Response.init).2) :=
  C52_registered_address env dev d req _ s hd h1 h2 hs

theorem exNotWww : ¬ ∃ e, e ≠ [] ∧ bs "a.org" = wwwOf e := by
  rintro ⟨e, _, h⟩
  have := congrArg List.head? h
  simp [wwwOf, bs] at this

example := C15_pass_only_own_domain (bs "a.org") ⟨bs "GET", bs "a.org", bs "/x", []⟩ Response.init _
  (C15_own_domain_passes (bs "a.org") ⟨bs "GET", bs "a.org", bs "/x", []⟩ Response.init (by decide) exNotWww (.inr rfl))
example := C15_redirects (bs "a.org") ⟨bs "GET", bs "www.a.org", bs "/x", bs "q=1"⟩ Response.init (by unfold Lacks; decide +kernel)
  (by unfold Lacks; decide +kernel) (.inr ⟨by decide, by decide +kernel⟩)
example := C15_redirects (bs "a.org") ⟨bs "GET", bs "10.0.0.1", bs "/x", []⟩ Response.init (by unfold Lacks; decide +kernel)
  (by unfold Lacks; decide +kernel) (.inl (by decide))
example := C15_other_hosts_rejected (bs "a.org") ⟨bs "GET", bs "b.org", bs "/x", []⟩ Response.init (by decide) (by decide)
  (by decide) (by decide)
example := C16_dispatch_iff demoEnv (idFromString demoEnv) ⟨bs "POST", [], bs "/s", bs "BQAAAAAAAAA"⟩ Response.init _
  (Option.some_get (show (mux demoEnv (idFromString demoEnv) ⟨bs "POST", [], bs "/s", bs "BQAAAAAAAAA"⟩ Response.init).isSome
    by decide +kernel)).symm 7
example := C16_wrong_method demoEnv (idFromString demoEnv) ⟨bs "GET", [], bs "/s", bs "BQAAAAAAAAA"⟩ Response.init (by decide)
example := C16_bad_query demoEnv (fun q => if q = [] then some (.error 3) else idFromString demoEnv q) ⟨bs "POST", [], bs "/s", []⟩
  Response.init rfl 3 rfl
example := C16_unknown_service demoEnv (idFromString demoEnv) ⟨bs "POST", [], bs "/s", bs "?"⟩ Response.init rfl 0 9
  (by decide +kernel) (by decide +kernel)
theorem exServed : serveV1 demoEnv false (bs "a.org") ⟨bs "GET", bs "a.org", bs "/x", []⟩ Response.init =
    some ([.ran 7, .respond (Response.init.setStatus (bs "200") (bs "OK"))], none) :=
  C52_registered_address demoEnv false _ _ _ 7
    (.inr (C15_own_domain_passes (bs "a.org") _ Response.init (by decide) exNotWww (.inr rfl))) (by decide) (by decide) (by decide)

example := C52_exactly_one_response demoEnv false (bs "a.org") ⟨bs "GET", bs "a.org", bs "/x", []⟩ Response.init _ _ exServed
example := C52_host_check_guards_handlers demoEnv (bs "a.org") ⟨bs "GET", bs "a.org", bs "/x", []⟩ Response.init _ _ exServed ⟨.ran 7, by simp, .inl ⟨7, rfl⟩⟩
example := C52_readable_request demoEnv false (bs "a.org") ⟨bs "GET", bs "a.org", bs "/x", []⟩ 7
  (.inr (C15_own_domain_passes (bs "a.org") _ Response.init (by decide) exNotWww (.inr rfl))) (by decide) (by decide) (by decide)
example := C52_every_arrival_answered_once demoEnv true (bs "a.org") (.ok ⟨bs "GET", bs "b.org", bs "/x", []⟩) _ _
  (C52_readable_request demoEnv true (bs "a.org") ⟨bs "GET", bs "b.org", bs "/x", []⟩ 7 (.inl rfl) (by decide) (by decide) (by decide))

end Memar.Http

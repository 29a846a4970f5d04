import Verif.Base
import Verif.Strings

/-!
# The command line: operation/command/flag.go, cla.go, command.go, serve.go

The text conversions of the flags are parameters: `accepts f v` says that `f.FromString(v)` returns no
error.  The values given to flags are the list of the successful conversions, in order.
-/

namespace Memar.Command
open Memar

/-- What the parser uses of `protocol.DataType`; `isBool` is the type assertion of operation/command/flag.go:207. -/
structure Field where
  name : Bytes
  abbr : Bytes
  isBool : Bool
deriving DecidableEq, Repr

inductive Err where
  | flagBadSyntax | flagNotFound | flagNeedsAnArgument | fromString
  | serviceNotFound | serviceCallByAlias
deriving DecidableEq, Repr

/-- operation/command/flag.go:14-19; `sets` is `parsed` with the value given to the flag. -/
structure FlagSet where
  fields : List Field
  sets : List (Field × Bytes)
  args : List Bytes
deriving DecidableEq, Repr

/-- operation/command/flag.go:128-158; false is a panic. -/
def checkFields (fields : List Field) : Bool :=
  (fields.all fun f => !(f.name.head? == some (ch '-')) && !(f.name.contains (ch '='))) &&
  (fields.map (·.name)).Pairwise (· ≠ ·)

/-- operation/command/flag.go:27-39 -/
def init (fields : List Field) (arguments : List Bytes) : Option FlagSet :=
  if checkFields fields then some ⟨fields, [], arguments⟩ else none

/-- operation/command/flag.go:104-111 -/
def lookup (fields : List Field) (name : Bytes) : Option Field :=
  fields.find? fun f => f.name == name || f.abbr == name

/-- operation/command/flag.go:114-126 -/
def set (accepts : Field → Bytes → Bool) (s : FlagSet) (name value : Bytes) : FlagSet × Option Err :=
  match lookup s.fields name with
  | none => (s, some .flagNotFound)
  | some f =>
    if accepts f value then ({ s with sets := s.sets ++ [(f, value)] }, none)
    else (s, some .fromString)

/-- operation/command/flag.go:199-221 -/
def checkAndSet (accepts : Field → Bytes → Bool) (s : FlagSet) (name value : Bytes) :
    FlagSet × Option Err :=
  if value.length > 0 then set accepts s name value
  else match lookup s.fields name with
    | none => (s, some .flagNotFound)
    | some f =>
      if f.isBool then set accepts s name (bs "true")
      else match s.args with
        | v :: rest => set accepts { s with args := rest } name v
        | [] => (s, some .flagNeedsAnArgument)

/-- operation/command/flag.go:186-192: the loop, `before` is what of the name was passed. -/
def splitAtEq (before : Bytes) : Bytes → Bytes × Bytes
  | [] => (before, [])
  | c :: t => if c = ch '=' then (before, t) else splitAtEq (before ++ [c]) t

/-- operation/command/flag.go:183-195 -/
def parseFlag (accepts : Field → Bytes → Bool) (s : FlagSet) (rest : List Bytes) (name : Bytes) :
    FlagSet × Option Err :=
  match name with
  | [] => (s, some .flagBadSyntax)
  | c :: t =>
    if c = ch '-' ∨ c = ch '=' then (s, some .flagBadSyntax)
    else checkAndSet accepts { s with args := rest } (splitAtEq [c] t).1 (splitAtEq [c] t).2

/-- operation/command/flag.go:161-196 -/
def parseOne (accepts : Field → Bytes → Bool) (s : FlagSet) : FlagSet × Option Err :=
  match s.args with
  | [] => (s, none)
  | a :: rest =>
    match a with
    | c :: d :: t =>
      if c ≠ ch '-' then (s, some .flagBadSyntax)
      else if d = ch '-' then
        if t = [] then ({ s with args := rest }, some .flagBadSyntax)
        else parseFlag accepts s rest t
      else parseFlag accepts s rest (d :: t)
    | _ => (s, some .flagBadSyntax)

theorem set_args (accepts : Field → Bytes → Bool) (s : FlagSet) (n v : Bytes) :
    (set accepts s n v).1.args = s.args ∧ (set accepts s n v).1.fields = s.fields := by
  unfold set
  split
  · exact ⟨rfl, rfl⟩
  · split <;> exact ⟨rfl, rfl⟩

theorem checkAndSet_args (accepts : Field → Bytes → Bool) (s : FlagSet) (n v : Bytes) :
    (checkAndSet accepts s n v).1.args.length ≤ s.args.length := by
  unfold checkAndSet
  split
  · rw [(set_args accepts s n v).1]; exact Nat.le_refl _
  · split
    · exact Nat.le_refl _
    · split
      · rw [(set_args accepts s n _).1]; exact Nat.le_refl _
      · split
        · next h => rw [(set_args accepts _ n _).1, h]; simp
        · exact Nat.le_refl _

/-- A successful step consumes at least one argument; this is why `Parse` terminates. -/
theorem parseOne_args (accepts : Field → Bytes → Bool) (s : FlagSet) (hne : s.args ≠ [])
    (h : (parseOne accepts s).2 = none) : (parseOne accepts s).1.args.length < s.args.length := by
  have hf : ∀ rest name, (parseFlag accepts s rest name).2 = none →
      (parseFlag accepts s rest name).1.args.length ≤ rest.length := by
    intro rest name hn
    unfold parseFlag at hn ⊢
    split at hn
    · simp at hn
    · split at hn
      · simp at hn
      · next hc =>
        simp only [hc, if_false]
        exact checkAndSet_args accepts _ _ _
  unfold parseOne at h ⊢
  cases ha : s.args with
  | nil => exact absurd ha hne
  | cons a rest =>
    rw [ha] at h
    simp only at h ⊢
    match a with
    | [] => simp at h
    | [_] => simp at h
    | c :: d :: t =>
      simp only at h ⊢
      split at h
      · simp at h
      · next hc =>
        rw [if_neg hc]
        split at h
        · next hd =>
          rw [if_pos hd]
          split at h
          · simp at h
          · next ht =>
            rw [if_neg ht]
            exact Nat.lt_succ_of_le (hf _ _ h)
        · next hd =>
          rw [if_neg hd]
          exact Nat.lt_succ_of_le (hf _ _ h)

/-- operation/command/flag.go:52-60 -/
def parse (accepts : Field → Bytes → Bool) (s : FlagSet) : FlagSet × Option Err :=
  if hne : s.args = [] then (s, none)
  else if h : (parseOne accepts s).2 = none then parse accepts (parseOne accepts s).1
  else parseOne accepts s
termination_by s.args.length
decreasing_by exact parseOne_args accepts s hne h

/-- operation/command/cla.go:10-17; `none` is the panic of `Init`. -/
def fromCLA (accepts : Field → Bytes → Bool) (fields : List Field) (arguments : List Bytes) :
    Option (FlagSet × Option Err) := (init fields arguments).map (parse accepts)

/-- operation/command/cla.go:18-38; `value f` is `f.ToString()`. -/
def toCLA (fields : List Field) (value : Field → Bytes) : List Bytes :=
  fields.flatMap fun f => if value f = [] then [] else [f.name, value f]

/-! ## Commands -/

/-- A command: `ServeCLA` of a command with sub commands is the helper `cmd.ServeCLA`; `handler` is
the code of a command without. -/
inductive Cmd where
  | group (name abbr : Bytes) (aliases : List Bytes) (subs : List Cmd)
  | handler (name abbr : Bytes) (aliases : List Bytes) (id : Nat)

namespace Cmd

def name : Cmd → Bytes
  | .group n _ _ _ => n
  | .handler n _ _ _ => n
def abbr : Cmd → Bytes
  | .group _ a _ _ => a
  | .handler _ a _ _ => a
def aliases : Cmd → List Bytes
  | .group _ _ l _ => l
  | .handler _ _ l _ => l

/-- operation/command/command.go:35-54 for one sub command -/
def answersTo (c : Cmd) (n : Bytes) : Bool := c.name == n || c.abbr == n || c.aliases.any (· == n)

/-- operation/command/command.go:35-54 -/
def subCommand (subs : List Cmd) (n : Bytes) : Option Cmd := subs.find? (·.answersTo n)

/-- What a call on the command line leads to. -/
inductive Outcome where
  | handled (id : Nat) (args : List Bytes)
  | failed (e : Err)
  | panics
deriving DecidableEq, Repr

/-- operation/command/serve.go:14-50 for the first sub command that answers, which serves itself the remaining
arguments; printing is left out. -/
def serve : Cmd → List Bytes → Outcome
  | .handler _ _ _ id, args => .handled id args
  | .group _ _ _ subs, args => serveSubs subs args (args.headD (bs "help"))
where
  /-- The search of operation/command/command.go:37-52 together with operation/command/serve.go:40-48 for the command found. -/
  serveSubs : List Cmd → List Bytes → Bytes → Outcome
  | [], _, _ => .failed .serviceNotFound
  | c :: cs, args, n =>
    if c.answersTo n then
      if n ≠ c.name ∧ n ≠ c.abbr then .failed .serviceCallByAlias
      else match args with
        | [] => .panics
        | _ :: rest => serve c rest
    else serveSubs cs args n

end Cmd

/-- operation/command/serve.go:65-76: the names from the root to the command, given from the command to the root. -/
def commandPath : List Bytes → Bytes
  | names => (names.foldl (fun full n => n ++ ch ' ' :: full) []).dropLast

end Memar.Command

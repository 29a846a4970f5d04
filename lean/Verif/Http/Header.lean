import Verif.Base

/-!
# Package `net/http`: header lines (header.go)

A header is the list of its lines. Indexes are natural numbers here (the callers in the
repository start at `0` and go up); `Verif/Http/Find.lean` follows negative ones.
-/

namespace Memar.Http
open Memar

/-- net/http/header.go:17-20 `header_KV` -/
abbrev KV := Bytes × Bytes

/-- net/http/header.go:13-15 `Header` -/
structure Header where
  lines : List KV
  deriving DecidableEq, Repr

/-- net/http/const.go:19 -/
def headerInitLen : Nat := 16

/-- net/http/header.go:23-26 `Init` -/
def Header.init : Header := ⟨List.replicate headerInitLen ([], [])⟩

/-- net/http/header.go:27-32 `Reinit`: `clear` zeroes the elements and keeps the length -/
def Header.reinit (h : Header) : Header := ⟨h.lines.map fun _ => ([], [])⟩

/-- net/http/header.go:105-114 the loop of `Header_Find` -/
def findLoop (lines : List KV) (key : Bytes) (i : Nat) : Bytes × Nat :=
  if h : i < lines.length then
    if lines[i].1 = key then (lines[i].2, i) else findLoop lines key (i + 1)
  else ([], 0)
  termination_by lines.length - i

/-- net/http/header.go:105-114 `Header_Find` -/
def Header.find (h : Header) (startIndex : Nat) (key : Bytes) : Bytes × Nat :=
  findLoop h.lines key startIndex

/-- net/http/header.go:41-44 `Header_Get` -/
def Header.get (h : Header) (key : Bytes) : Bytes := (h.find 0 key).1

/-- net/http/header.go:50-52 `Header_Add` -/
def Header.add (h : Header) (key value : Bytes) : Header := ⟨h.lines ++ [(key, value)]⟩

/-- Go `slices.Delete(s, i, j)`: removes `s[i:j]`, panics unless `i ≤ j ≤ len(s)`. -/
def slicesDelete {α} (s : List α) (i j : Nat) : Option (List α) :=
  if i ≤ j ∧ j ≤ s.length then some (s.take i ++ s.drop j) else none

/-- net/http/header.go:58-73 the loop of `Header_Set`: state `(h.lines, ln, i, set)`. `i--` followed
by the loop's `i++` is written as keeping `i`. Line 65 assigns to the local copy `hPair`. -/
def setLoop (key value : Bytes) (lines : List KV) (ln i : Nat) (set : Bool) :
    Option (List KV × Bool) :=
  if _h : i < ln then
    match lines[i]? with
    | none => none
    | some hPair =>
      if hPair.1 = key then
        if !set then
          let _hPair : KV := (hPair.1, value)
          setLoop key value lines ln (i + 1) true
        else
          match slicesDelete lines i i with
          | none => none
          | some lines' => setLoop key value lines' (ln - 1) i set
      else setLoop key value lines ln (i + 1) set
  else some (lines, set)
  termination_by ln - i

/-- net/http/header.go:58-77 `Header_Set` -/
def Header.set (h : Header) (key value : Bytes) : Option Header :=
  match setLoop key value h.lines h.lines.length 0 false with
  | none => none
  | some (lines, set) =>
    if !set then some (Header.add ⟨lines⟩ key value) else some ⟨lines⟩

/-- net/http/header.go:83-93 the loop of `Header_Del` -/
def delLoop (key : Bytes) (lines : List KV) (ln i : Nat) : Option (List KV) :=
  if _h : i < ln then
    match lines[i]? with
    | none => none
    | some hPair =>
      if hPair.1 = key then
        match slicesDelete lines i i with
        | none => none
        | some lines' => delLoop key lines' (ln - 1) i
      else delLoop key lines ln (i + 1)
  else some lines
  termination_by ln - i

/-- net/http/header.go:83-93 `Header_Del` -/
def Header.del (h : Header) (key : Bytes) : Option Header :=
  (delLoop key h.lines h.lines.length 0).map Header.mk

/-- net/http/header.go:98-102 `Exclude` -/
def Header.exclude (h : Header) : List Bytes → Option Header
  | [] => some h
  | key :: ks => do
    let h' ← h.del key
    h'.exclude ks

/-- net/http/header-set-cookie.go:37-47 the header walk of `SetCookies.Next`, for any header name:
the value found (if non-empty) and the next start index. -/
def Header.next (h : Header) (key : Bytes) (start : Nat) : Option Bytes × Nat :=
  let (sc, sci) := h.find start key
  if sc = [] then (none, start) else (some sc, sci + 1)

/-- The result of the `n`-th call of `Next` (counting from `0`) on an iterator at `start`. -/
def Header.nthNext (h : Header) (key : Bytes) (start : Nat) : Nat → Option Bytes
  | 0 => (h.next key start).1
  | n + 1 => h.nthNext key (h.next key start).2 n

end Memar.Http

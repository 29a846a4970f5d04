import Verif.Base
import Verif.Strings
import Verif.Decimal

/-!
# Files: file/file.go, file/uri.go

`filepath.Split` is the one of Unix.  `none` is a panic.
-/

namespace Memar.File
open Memar Memar.Decimal

/-! ## file/uri.go -/

/-- `filepath.Split` (standard library): directory with its slash, and file name. -/
def filepathSplit (u : Bytes) : Bytes × Bytes :=
  match lastIndexByte u (ch '/') with
  | none => ([], u)
  | some i => (u.take (i + 1), u.drop (i + 1))

/-- file/uri.go:70-78 -/
def extension (name : Bytes) : Bytes :=
  match lastIndexByte name (ch '.') with
  | none => []
  | some i => name.drop (i + 1)

/-- file/uri.go:13-19 without `uri` and `domain`, which nothing sets. -/
structure URI where
  path : Bytes
  name : Bytes
  ext : Bytes
deriving DecidableEq, Repr

/-- file/uri.go:39-42 -/
def URI.rename (u : URI) (newName : Bytes) : URI := { u with name := newName, ext := extension newName }

/-- file/uri.go:21-26 -/
def URI.init (u : URI) (s : Bytes) : URI := { u with path := (filepathSplit s).1 }.rename (filepathSplit s).2

/-- file/uri.go:61-68 -/
def URI.unmarshal (u : URI) (s : Bytes) : URI :=
  { u with path := (filepathSplit s).1, name := (filepathSplit s).2 }

/-- file/uri.go:33 -/
def URI.nameWithoutExtension (u : URI) : Option Bytes :=
  if u.ext.length ≤ u.name.length then some (u.name.take (u.name.length - u.ext.length)) else none

/-- file/uri.go:93 -/
def isPathDirectory (p : Bytes) : Option Bool := p.getLast?.map (· == ch '/')

/-- file/uri.go:35 -/
def URI.isDirectory (u : URI) : Option Bool := isPathDirectory u.path

/-- file/uri.go:80-91: the loop; `before` is `uriPath[:i]` and the rest is `uriPath[i:]`.  After a slash
`i` is set to 0 and incremented, so that the first byte behind the slash is not looked at. -/
def partsLoop (before : Bytes) : Bytes → List Bytes
  | [] => [before]
  | c :: t =>
    if c = ch '/' then
      before :: match t with
        | [] => [[]]
        | d :: t => partsLoop [d] t
    else partsLoop (before ++ [c]) t

/-- file/uri.go:80-91 -/
def filePathParts (p : Bytes) : List Bytes := partsLoop [] p

/-- file/file.go:41-54: the new name; `crc` is CRC-32 (standard library). -/
def hashedName (crc : Bytes → U32) (u : URI) (content : Bytes) : Option Bytes :=
  u.nameWithoutExtension.map fun n =>
    n ++ ch '-' :: decDigits (crc content).toNat ++ ch '.' :: u.ext

/-! ## file/file.go -/

/-- `strings.Split(s, sep)` for a separator of one byte (standard library); `before` is the piece read. -/
def splitLoop (c : Byte) (before : Bytes) : Bytes → List Bytes
  | [] => [before]
  | x :: t => if x = c then before :: splitLoop c [] t else splitLoop c (before ++ [x]) t

def split (s : Bytes) (c : Byte) : List Bytes := splitLoop c [] s

/-- The methods of files and directories that file/file.go:15-39 calls; `none` is the nil interface. -/
structure FileSystem (δ φ : Type) where
  parent : δ → Option δ
  directory : δ → Bytes → Option δ
  file : δ → Bytes → Option φ

/-- file/file.go:21-37: the loop over the directories; the last part is the file name.  The outer `none`
is the panic of a method of the nil interface. -/
def walk {δ φ} (fs : FileSystem δ φ) (dir : Option δ) : List Bytes → Option (Option φ)
  | [] => none
  | [fileName] => dir.map fun d => fs.file d fileName
  | p :: q :: rest =>
    if p = bs "." then walk fs dir (q :: rest)
    else if p = bs ".." then dir.bind fun d => walk fs (fs.parent d) (q :: rest)
    else dir.bind fun d =>
      match fs.directory d p with
      | none => some none
      | some d' => walk fs (some d') (q :: rest)

/-- file/file.go:15-39; `dir` is the parent directory of the file. -/
def findByRelativeFrom {δ φ} (fs : FileSystem δ φ) (dir : Option δ) (path : Bytes) : Option (Option φ) :=
  if (split path (ch '/')).length < 2 then some none else walk fs dir (split path (ch '/'))

/-- file/file.go:95-99 -/
structure ReplaceReq where
  data : Bytes
  start : Int
  stop : Int
deriving DecidableEq, Repr

/-- Go `s[i:]` for a signed `i`. -/
def fromI (s : Bytes) (i : Int) : Option Bytes :=
  if 0 ≤ i ∧ i ≤ s.length then some (s.drop i.toNat) else none

/-- `copy(s[i:], d)` -/
def copyAt (s : Bytes) (i : Int) (d : Bytes) : Option Bytes :=
  (fromI s i).map fun t => s.take i.toNat ++ goCopy t d

/-- The loop body file/file.go:114-132 with `addedSize` given; `ext` are the bytes behind the content:
zeros if the slice is extended by `append`, what the backing array holds if it is resliced. -/
def replaceOne (ext : Nat → Byte) (s data : Bytes) (start stop added : Int) : Option Bytes :=
  let s1 := if added > 0 then s ++ (List.range added.toNat).map ext else s
  (fromI s1 stop).bind fun tail =>
    (copyAt s1 (stop + added) tail).bind fun s2 =>
      (copyAt s2 start data).bind fun s3 =>
        if added < 0 then (if 0 ≤ s3.length + added then some (s3.take (s3.length + added).toNat) else none)
        else some s3

/-- file/file.go:109-133; `ext k` are the bytes of step `k`. -/
def replaceLoop (ext : Nat → Nat → Byte) (s : Bytes) (total : Int) : List ReplaceReq → Option Bytes
  | [] => some s
  | d :: rest =>
    (replaceOne (ext rest.length) s d.data (d.start + total) (d.stop + total)
        (d.data.length - ((d.stop + total) - (d.start + total)))).bind fun s' =>
      replaceLoop ext s' (total + (d.data.length - ((d.stop + total) - (d.start + total)))) rest

/-- file/file.go:102-137: the content of the file afterwards; errors of `Marshal` and `Unmarshal` are
left out. -/
def replaceLocation (ext : Nat → Nat → Byte) (s : Bytes) (data : List ReplaceReq) : Option Bytes :=
  replaceLoop ext s 0 data

end Memar.File

import Verif.File.Model

/-!
# Model of `os/default`: directories and files of the application

Objects live in a heap: a directory (`*FileDirectory`) or a file (`*File`) is an index into the list of all
objects made so far, and `none` is the nil pointer. The operating system is a parameter: what `Mkdir`,
`ReadDir`, `WriteFile`, `Remove`, `ReadFile` and `OpenFile` answer may depend on every call made before, and the calls
are recorded in order. A run-time panic is `none`.

Go detail that matters here: the methods return interfaces (`protocol.File`, `protocol.FileDirectory`). A nil
pointer put into an interface is not the nil interface, so comparing the interface with `nil` gives false.
-/

namespace Memar.Os
open Memar.File

/-- An interface value holding a pointer: the nil interface, or an interface around a pointer that may be nil
(the Go specification, comparison of interface values). -/
inductive Iface where
  | nil
  | ptr (p : Option Nat)
  deriving DecidableEq, Repr

/-- `FileDirectory` (os/default/file-directory.go:19-24); of the metadata only the URI is kept, nothing sets the rest.
The maps are association lists in the order of insertion. -/
structure DirNode where
  uri : URI
  parent : Option Nat
  dirs : List (Bytes × Option Nat)
  files : List (Bytes × Option Nat)
  deriving Repr

/-- `File` (os/default/file.go:18-24); `data = none` is the nil slice. The media type is the standard library's
`mime.TypeByExtension` of the extension, so it is kept as the extension it was computed from. -/
structure FileNode where
  uri : URI
  parent : Option Nat
  mediaOf : Bytes
  compressType : Bytes
  data : Option Bytes
  deriving Repr

/-- The calls made to the operating system, with their arguments. -/
inductive OsCall where
  | mkdir (path : Bytes)
  | readDir (path : Bytes)
  | remove (path : Bytes)
  | writeFile (path data : Bytes)
  | readFile (path : Bytes)
  | appendFile (path data : Bytes)
  deriving DecidableEq, Repr

/-- Answers of the operating system, given the calls made before: did `Mkdir` succeed, the entries read by `ReadDir`
(name and whether it is a directory, `none` on error), the content read by `ReadFile`. -/
structure Oracle where
  mkdir : List OsCall → Bytes → Bool
  readDir : List OsCall → Bytes → Option (List (Bytes × Bool))
  readFile : List OsCall → Bytes → Bytes

/-- All objects, and the calls made so far. -/
structure World where
  dirs : List DirNode
  files : List FileNode
  calls : List OsCall
  deriving Repr

/-- Go map lookup on a `map[string]*T`: a missing key gives the nil pointer. -/
def lookup (m : List (Bytes × Option Nat)) (k : Bytes) : Option Nat :=
  match m.find? (fun (e : Bytes × Option Nat) => e.1 == k) with
  | some e => e.2
  | none => none

/-- Go `_, exist := m[k]`. -/
def has (m : List (Bytes × Option Nat)) (k : Bytes) : Bool := m.any (fun (e : Bytes × Option Nat) => e.1 == k)

/-- Go `delete(m, k)`. -/
def mapDelete (m : List (Bytes × Option Nat)) (k : Bytes) : List (Bytes × Option Nat) :=
  m.filter (fun (e : Bytes × Option Nat) => e.1 != k)

/-- Go `m[k] = v`. -/
def mapSet (m : List (Bytes × Option Nat)) (k : Bytes) (v : Option Nat) : List (Bytes × Option Nat) :=
  if has m k then m.map fun (e : Bytes × Option Nat) => if e.1 == k then (k, v) else e else m ++ [(k, v)]

/-- os/default/file-directory.go:270-277: the entries read from the disk, split into the two maps with nil values. -/
def fillMaps : List (Bytes × Bool) → List (Bytes × Option Nat) → List (Bytes × Option Nat) →
    List (Bytes × Option Nat) × List (Bytes × Option Nat)
  | [], ds, fs => (ds, fs)
  | (n, isDir) :: t, ds, fs => if isDir then fillMaps t (mapSet ds n none) fs else fillMaps t ds (mapSet fs n none)

/-- os/default/file-directory.go:260-279: `init` of the directory object `d`. -/
def dirInit (o : Oracle) (w : World) (d : DirNode) (path : Bytes) : DirNode × World :=
  let u := d.uri.init path
  let w' := { w with calls := w.calls ++ [.readDir u.path] }
  match o.readDir w.calls u.path with
  | none => ({ d with uri := u, dirs := [], files := [] }, w')
  | some es => ({ d with uri := u, dirs := (fillMaps es [] []).1, files := (fillMaps es [] []).2 }, w')

/-- The zero URI. -/
def zeroURI : URI := ⟨[], [], []⟩

/-- os/default/os.go:42: `OS.localFileDirectory.init("/")`; the root is directory 0 and has no parent. -/
def start (o : Oracle) : World :=
  let r := dirInit o ⟨[], [], []⟩ ⟨zeroURI, none, [], []⟩ [ch '/']
  { r.2 with dirs := [r.1] }

/-- os/default/file-directory.go:35-58: `Directory`. Errors of the operating system are dropped. When the entry would
be made, the new object registers itself in its own map (line 55: the inner variable shadows the receiver). -/
def directory (o : Oracle) (w : World) (d : Nat) (name : Bytes) : Option (World × Iface) :=
  match w.dirs[d]? with
  | none => none
  | some n =>
    let dirPath := n.uri.path ++ [ch '/'] ++ name ++ [ch '/']
    let dr := Iface.ptr (lookup n.dirs name)
    let exist := has n.dirs name
    let w1 := if exist then w else { w with calls := w.calls ++ [.mkdir dirPath] }
    if !exist && !o.mkdir w.calls dirPath then some (w1, dr)
    else if dr = Iface.nil then
      let r := dirInit o w1 ⟨zeroURI, some d, [], []⟩ dirPath
      some ({ r.2 with dirs := r.2.dirs ++ [{ r.1 with dirs := mapSet r.1.dirs name (some r.2.dirs.length) }] }, dr)
    else some (w1, dr)

/-- os/default/file.go:30-34: `init` of a file object. -/
def fileInit (f : FileNode) (path : Bytes) : FileNode :=
  { f with uri := f.uri.init path, mediaOf := (f.uri.init path).ext }

/-- The directory object `d` with its map of files changed. -/
def setFiles (w : World) (d : Nat) (fs : List (Bytes × Option Nat)) : World :=
  { w with dirs := w.dirs.modify d fun (n : DirNode) => { n with files := fs } }

/-- The directory object `d` with its map of directories changed. -/
def setDirs (w : World) (d : Nat) (ds : List (Bytes × Option Nat)) : World :=
  { w with dirs := w.dirs.modify d fun (n : DirNode) => { n with dirs := ds } }

/-- os/default/file-directory.go:77-91: `File`. -/
def file (w : World) (d : Nat) (name : Bytes) : Option (World × Iface) :=
  match w.dirs[d]? with
  | none => none
  | some n =>
    let f := Iface.ptr (lookup n.files name)
    if f = Iface.nil then
      let w1 := { w with files := w.files ++ [fileInit ⟨zeroURI, some d, [], [], none⟩ name] }
      some (setFiles w1 d (mapSet n.files name (some w.files.length)), f)
    else some (w, f)

/-- `sort.Strings` (standard library): insertion into a sorted list, by byte order. -/
def insertKey (k : Bytes) : List Bytes → List Bytes
  | [] => [k]
  | x :: t => if bytesLe k x then k :: x :: t else x :: insertKey k t
where
  /-- Byte-wise order of strings. -/
  bytesLe : Bytes → Bytes → Bool
    | [], _ => true
    | _ :: _, [] => false
    | a :: s, b :: t => a.toNat < b.toNat || (a == b && bytesLe s t)

/-- `sort.Strings` (standard library). -/
def sortKeys : List Bytes → List Bytes
  | [] => []
  | k :: t => insertKey k (sortKeys t)

/-- os/default/file-directory.go:61-73: `Files`; `offset` and `limit` are not read. -/
def filesOf (n : DirNode) (_offset _limit : U64) : List Iface :=
  (sortKeys (n.files.map fun (e : Bytes × Option Nat) => e.1)).map fun (k : Bytes) => Iface.ptr (lookup n.files k)

/-- os/default/file-directory.go:137-147: `directoryByPathParts`. -/
def byParts (w : World) : Nat → List Bytes → Option (Option Nat)
  | d, [] => some (some d)
  | d, p :: ps =>
    match w.dirs[d]? with
    | none => none
    | some n =>
      match lookup n.dirs p with
      | none => some none
      | some d' => byParts w d' ps

/-- os/default/file-directory.go:109-111 and os/default/file-directory.go:130-132: a leading empty part is dropped. -/
def dropRoot : List Bytes → List Bytes
  | [] => []
  | p :: ps => if p = [] then ps else p :: ps

/-- os/default/file-directory.go:99-119: `fileByPath`. The directory is looked up by all the parts, the file name
among them. -/
def fileByPath (w : World) (d : Nat) (uriPath : Bytes) : Option (Option Nat) :=
  let parts := split uriPath (ch '/')
  let full := parts.getLastD []
  match w.dirs[d]? with
  | none => none
  | some n =>
    if parts.length < 3 then some (lookup n.files full)
    else
      match byParts w d (dropRoot parts) with
      | none => none
      | some none => some none
      | some (some d') =>
        match w.dirs[d']? with
        | none => none
        | some n' => some (lookup n'.files full)

/-- os/default/file-directory.go:94-97: `FileByPath`. -/
def fileByPathI (w : World) (d : Nat) (uriPath : Bytes) : Option Iface := (fileByPath w d uriPath).map Iface.ptr

/-- os/default/file-directory.go:128-135: `directoryByPath`. -/
def directoryByPath (w : World) (d : Nat) (uriPath : Bytes) : Option (Option Nat) :=
  byParts w d (dropRoot (split uriPath (ch '/')))

/-- `strings.Contains` (standard library). -/
def contains (s sub : Bytes) : Bool := (List.range (s.length + 1)).any fun (i : Nat) => sub.isPrefixOf (s.drop i)

/-- os/default/file-directory.go:150-160: `FindFiles`; `order` is the order in which Go visits the map. `int(num)` of a
huge `num` is negative and never equals a length. -/
def findFiles (part : Bytes) (num : U64) : List (Bytes × Option Nat) → List Iface → List Iface
  | [], acc => acc
  | (k, f) :: t, acc =>
    if contains k part then
      if ((acc ++ [Iface.ptr f]).length : Int) = num.toInt then acc ++ [Iface.ptr f]
      else findFiles part num t (acc ++ [Iface.ptr f])
    else findFiles part num t acc

/-- os/default/file-directory.go:163-170: `FindFile`. -/
def findFile (part : Bytes) : List (Bytes × Option Nat) → Iface
  | [] => Iface.nil
  | (k, f) :: t => if contains k part then Iface.ptr f else findFile part t

/-- os/default/file-directory.go:173-187: `FindFileRecursively`; `order` is the order in which Go visits each map and
`fuel` bounds the depth of the recursion (a deeper one is not decided). The receiver may be nil, and reading its
fields panics. `none` is a panic. -/
def findRec (w : World) (order : List (Bytes × Option Nat) → List (Bytes × Option Nat)) (part : Bytes) :
    Nat → Option Nat → Option (Option Nat)
  | 0, _ => none
  | _ + 1, none => none
  | fuel + 1, some d =>
    match w.dirs[d]? with
    | none => none
    | some n =>
      match lookup n.files part with
      | some f => some (some f)
      | none =>
        (order n.dirs).foldl (fun (r : Option (Option Nat)) (e : Bytes × Option Nat) =>
          match r with
          | none => none
          | some (some f) => some (some f)
          | some none => findRec w order part fuel e.2) (some none)

/-- os/default/file-directory.go:242-257: `GetDependencyRecursively`. -/
def depRec (w : World) (order : List (Bytes × Option Nat) → List (Bytes × Option Nat)) (name : Bytes) :
    Nat → Option Nat → Option (Option Nat)
  | 0, _ => none
  | _ + 1, none => none
  | fuel + 1, some d =>
    match w.dirs[d]? with
    | none => none
    | some n =>
      if has n.dirs name then some (lookup n.dirs name)
      else
        (order n.dirs).foldl (fun (r : Option (Option Nat)) (e : Bytes × Option Nat) =>
          match r with
          | none => none
          | some (some t) => some (some t)
          | some none => depRec w order name fuel e.2) (some none)

/-- os/default/file-directory.go:223-233: `Delete`; the world holds the call of `Remove` also when a panic follows. The
second component is `none` on a panic. -/
def delete (w : World) (d : Nat) (uriPath : Bytes) : World × Option World :=
  let w1 := { w with calls := w.calls ++ [.remove uriPath] }
  (w1,
    match isPathDirectory uriPath with
    | none => none
    | some true =>
      match directoryByPath w1 d uriPath with
      | some (some t) =>
        match w1.dirs[t]? with
        | none => none
        | some n =>
          match n.parent with
          | none => none
          | some p =>
            match w1.dirs[p]? with
            | none => none
            | some pn => some (setDirs w1 p (mapDelete pn.dirs n.uri.name))
      | _ => none
    | some false =>
      match fileByPath w1 d uriPath with
      | some (some f) =>
        match w1.files[f]? with
        | none => none
        | some fn =>
          match fn.parent with
          | none => none
          | some p =>
            match w1.dirs[p]? with
            | none => none
            | some pn => some (setFiles w1 p (mapDelete pn.files fn.uri.name))
      | _ => none)

/-! ## Methods of a file; the receiver may be the nil pointer -/

/-- The file object behind a pointer; reading a field of the nil pointer panics. -/
def deref (w : World) (f : Option Nat) : Option FileNode :=
  match f with
  | none => none
  | some i => w.files[i]?

/-- The file object `i` replaced. -/
def setFile (w : World) (i : Nat) (n : FileNode) : World := { w with files := w.files.set i n }

/-- os/default/file.go:37-46: `Save`; the error of `WriteFile` is dropped. -/
def save (w : World) (f : Option Nat) : Option World :=
  (deref w f).map fun (n : FileNode) =>
    match n.data with
    | none => w
    | some d => { w with calls := w.calls ++ [.writeFile n.uri.path d] }

/-- os/default/file.go:49-53: `Rename`. -/
def rename (w : World) (f : Option Nat) (newName : Bytes) : Option World :=
  match f, deref w f with
  | some i, some n =>
    match n.parent with
    | none => none
    | some p =>
      match w.dirs[p]? with
      | none => none
      | some pn =>
        let w1 := setFiles w p (mapSet (mapDelete pn.files n.uri.name) newName (some i))
        some (setFile w1 i { n with uri := n.uri.rename newName })
  | _, _ => none

/-- os/default/file.go:64-67: the extensions never compressed. -/
def noCompress : List Bytes :=
  [bs "png", bs "jpg", bs "gif", bs "jpeg", bs "mkv", bs "avi", bs "mp3", bs "mp4"]

/-- os/default/file.go:62-78: `Compress`; `gz` is gzip (standard library), and `gzipName` is `codec.CompressTypeGZIP`. -/
def compress (gz : Bytes → Bytes) (gzipName : Bytes) (w : World) (f : Option Nat) (ct : Bytes) : Option World :=
  match f, deref w f with
  | some i, some n =>
    if n.uri.ext ∈ noCompress then some w
    else if ct = gzipName then
      some (setFile w i { n with compressType := ct, data := some (gz (n.data.getD [])) })
    else some (setFile w i { n with compressType := ct })
  | _, _ => none

/-- os/default/file.go:81-83: `Replace`; `repl` is `bytes.Replace` (standard library), on slices that may be nil (`none`): what it
answers for a nil slice may be nil again. -/
def replace (repl : Option Bytes → Bytes → Bytes → Int → Option Bytes) (w : World) (f : Option Nat) (old new : Bytes) (k : Int) :
    Option World :=
  match f, deref w f with
  | some i, some n => some (setFile w i { n with data := repl n.data old new k })
  | _, _ => none

/-- os/default/file.go:126-132: `Prepend` of a slice that is not nil. -/
def prepend (w : World) (f : Option Nat) (data : Bytes) : Option World :=
  match f, deref w f with
  | some i, some n =>
    match n.data with
    | some d => some (setFile w i { n with data := some (data ++ d) })
    | none => some w
  | _, _ => none

/-- os/default/file.go:135-159: `Append`; `URI()` of a file URI is a field that nothing sets (file/uri.go:28), so the file
opened is the one with the empty name. -/
def append (w : World) (f : Option Nat) (data : Bytes) : Option World :=
  match f, deref w f with
  | some i, some n =>
    match n.data with
    | some d => some (setFile w i { n with data := some (d ++ data) })
    | none => some { w with calls := w.calls ++ [.appendFile [] data] }
  | _, _ => none

/-- os/default/file.go:182-188: `Marshal`; the error of `ReadFile` is dropped. -/
def marshal (o : Oracle) (w : World) (f : Option Nat) : Option (World × Bytes) :=
  (deref w f).map fun (n : FileNode) =>
    match n.data with
    | some d => (w, d)
    | none => ({ w with calls := w.calls ++ [.readFile n.uri.path] }, o.readFile w.calls n.uri.path)

/-- os/default/file.go:191-194: `MarshalTo`. -/
def marshalTo (w : World) (f : Option Nat) (data : Bytes) : Option Bytes :=
  (deref w f).map fun (n : FileNode) => data ++ n.data.getD []

/-- os/default/file.go:197-201: `Unmarshal` of a slice that is not nil. -/
def unmarshal (w : World) (f : Option Nat) (data : Bytes) : Option World :=
  match f, deref w f with
  | some i, some n => some (setFile w i { n with data := some data })
  | _, _ => none

/-- os/default/file.go:204: `Len`. -/
def len (w : World) (f : Option Nat) : Option Nat := (deref w f).map fun (n : FileNode) => (n.data.getD []).length

/-- os/default/file.go:211-216 and os/default/file.go:168-176: `ReadFrom` and `Decode`; `got` is what the reader gave before it ended or
failed. `io.Copy` (standard library) lets a reader that can write itself (`io.WriterTo`) write into the buffer, and otherwise (`plain`)
lets the buffer read, which allocates memory first: `bytes.Buffer.Bytes` of a buffer nothing was written to and that did not read is
nil. -/
def readFrom (w : World) (f : Option Nat) (plain : Bool) (got : Bytes) : Option World :=
  match f, deref w f with
  | some i, some n => some (setFile w i { n with data := if got = [] ∧ plain = false then none else some got })
  | _, _ => none

/-- os/default/file.go:220-225 and os/default/file.go:179: `WriteTo` and `Encode`: the bytes given to the writer. -/
def writeTo (w : World) (f : Option Nat) : Option Bytes := (deref w f).map fun (n : FileNode) => n.data.getD []

/-! ## Use of the application's directory: every call through the interface -/

/-- One call on the root directory. -/
inductive Op where
  | directory (name : Bytes)
  | file (name : Bytes)
  | delete (path : Bytes)
  deriving DecidableEq, Repr

/-- One call on the root directory; `none` is a panic. -/
def step (o : Oracle) (w : World) : Op → Option World
  | .directory n => (directory o w 0 n).map (·.1)
  | .file n => (file w 0 n).map (·.1)
  | .delete p => (delete w 0 p).2

/-- A history of calls, ended by the first panic. -/
def run (o : Oracle) (w : World) : List Op → Option World
  | [] => some w
  | op :: ops => (step o w op).bind fun w' => run o w' ops

end Memar.Os

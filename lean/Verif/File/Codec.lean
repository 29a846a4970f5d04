import Verif.File.Props

/-!
# File URIs as codecs: file/uri.go:48-68 (C84)
-/

namespace Memar.File

/-- file/uri.go:49-53 `Marshal`: an empty slice with room for five bytes. -/
def URI.marshal (_ : URI) : Bytes := []

/-- file/uri.go:56-58 `MarshalTo` -/
def URI.marshalTo (_ : URI) (data : Bytes) : Bytes := data

/-- C206 violated: the codec of a file URI loses it: encoding any URI gives no bytes and adds none, and what is decoded from it has neither path nor name,
whatever the two URIs were. -/
theorem C206_codec_violated (u v : URI) (data : Bytes) :
    u.marshal = [] ∧ u.marshalTo data = data ∧ (v.unmarshal u.marshal).path = [] ∧ (v.unmarshal u.marshal).name = [] :=
  ⟨rfl, rfl, rfl, rfl⟩

/-- C206: decoding the text of a path gives directory and name, which give the path back.
Missing: the dot, the kind of file, double slashes, and reading another path (refuted:
`C206_codec_violated`, `C206_dot_violated`, `C206_unmarshal_violated` and others). -/
theorem C206_unmarshal_partial (u : URI) (s : Bytes) : (u.unmarshal s).path ++ (u.unmarshal s).name = s ∧ ch '/' ∉ (u.unmarshal s).name := by
  have h := C84_split u s
  exact ⟨h.1, h.2.1⟩

example : (URI.init ⟨[], [], []⟩ (bs "a/b.c")).name = bs "b.c" ∧ ((URI.init ⟨[], [], []⟩ (bs "a/b.c")).unmarshal (bs "d/e")).name = bs "e" := by decide

end Memar.File

import Verif.Base

/-!
# Model of `convert` (the unsafe slice conversions)

A Go slice value is its header: the address of its first element, its length and its capacity
(counted in elements), over a memory of bytes. The conversions write a new header; they never touch
the memory. Arithmetic on lengths is on `Nat`: a real slice is too small for `Len * 16` to overflow.
-/

namespace Memar.Convert

/-- `reflect.SliceHeader`, as used by every conversion (convert/array-slice-unsafe.go:12-13). -/
structure SliceHeader where
  data : Nat
  len : Nat
  cap : Nat
  deriving DecidableEq, Repr

/-- `reflect.StringHeader` (convert/string-unsafe.go:12). -/
structure StringHeader where
  data : Nat
  len : Nat
  deriving DecidableEq, Repr

/-- `Unsafe16ByteArraySliceToByteSlice` (convert/array-slice-unsafe.go:11-18). -/
def unsafe16ByteArraySliceToByteSlice (req : SliceHeader) : SliceHeader := ⟨req.data, req.len * 16, req.cap * 16⟩

/-- `UnsafeByteSliceTo16ByteArraySlice` (convert/array-slice-unsafe.go:21-28). -/
def unsafeByteSliceTo16ByteArraySlice (req : SliceHeader) : SliceHeader := ⟨req.data, req.len / 16, req.cap / 16⟩

/-- `Unsafe32ByteArraySliceToByteSlice` (convert/array-slice-unsafe.go:31-38). -/
def unsafe32ByteArraySliceToByteSlice (req : SliceHeader) : SliceHeader := ⟨req.data, req.len * 32, req.cap * 32⟩

/-- `UnsafeByteSliceTo32ByteArraySlice` (convert/array-slice-unsafe.go:41-48). -/
def unsafeByteSliceTo32ByteArraySlice (req : SliceHeader) : SliceHeader := ⟨req.data, req.len / 32, req.cap / 32⟩

/-- `UnsafeBoolSliceToByteSlice` (convert/bool-slice-unsafe.go:11-18). -/
def unsafeBoolSliceToByteSlice (req : SliceHeader) : SliceHeader := ⟨req.data, req.len, req.cap⟩

/-- `UnsafeByteSliceToBoolSlice` (convert/bool-slice-unsafe.go:21-28). -/
def unsafeByteSliceToBoolSlice (req : SliceHeader) : SliceHeader := ⟨req.data, req.len, req.cap⟩

/-- `UnsafeComplex64SliceToByteSlice` (convert/complex-slice-unsafe.go:11-18). -/
def unsafeComplex64SliceToByteSlice (req : SliceHeader) : SliceHeader := ⟨req.data, req.len * 8, req.cap * 8⟩

/-- `UnsafeByteSliceToComplex64Slice` (convert/complex-slice-unsafe.go:21-28). -/
def unsafeByteSliceToComplex64Slice (req : SliceHeader) : SliceHeader := ⟨req.data, req.len / 8, req.cap / 8⟩

/-- `UnsafeComplex128SliceToByteSlice` (convert/complex-slice-unsafe.go:31-38). -/
def unsafeComplex128SliceToByteSlice (req : SliceHeader) : SliceHeader := ⟨req.data, req.len * 16, req.cap * 16⟩

/-- `UnsafeByteSliceToComplex128Slice` (convert/complex-slice-unsafe.go:41-48). -/
def unsafeByteSliceToComplex128Slice (req : SliceHeader) : SliceHeader := ⟨req.data, req.len / 16, req.cap / 16⟩

/-- `UnsafeFloat32SliceToByteSlice` (convert/float-slice-unsafe.go:11-18). -/
def unsafeFloat32SliceToByteSlice (req : SliceHeader) : SliceHeader := ⟨req.data, req.len * 4, req.cap * 4⟩

/-- `UnsafeByteSliceToFloat32Slice` (convert/float-slice-unsafe.go:21-28). -/
def unsafeByteSliceToFloat32Slice (req : SliceHeader) : SliceHeader := ⟨req.data, req.len / 4, req.cap / 4⟩

/-- `UnsafeFloat64SliceToByteSlice` (convert/float-slice-unsafe.go:31-38). -/
def unsafeFloat64SliceToByteSlice (req : SliceHeader) : SliceHeader := ⟨req.data, req.len * 8, req.cap * 8⟩

/-- `UnsafeByteSliceToFloat64Slice` (convert/float-slice-unsafe.go:41-48). -/
def unsafeByteSliceToFloat64Slice (req : SliceHeader) : SliceHeader := ⟨req.data, req.len / 8, req.cap / 8⟩

/-- `UnsafeUInt8SliceToByteSlice` (convert/integer-slice-unsafe.go:11-18). -/
def unsafeUInt8SliceToByteSlice (req : SliceHeader) : SliceHeader := ⟨req.data, req.len, req.cap⟩

/-- `UnsafeByteSliceToUInt8Slice` (convert/integer-slice-unsafe.go:21-28). -/
def unsafeByteSliceToUInt8Slice (req : SliceHeader) : SliceHeader := ⟨req.data, req.len, req.cap⟩

/-- `UnsafeUInt16SliceToByteSlice` (convert/integer-slice-unsafe.go:31-38). -/
def unsafeUInt16SliceToByteSlice (req : SliceHeader) : SliceHeader := ⟨req.data, req.len * 2, req.cap * 2⟩

/-- `UnsafeByteSliceToUInt16Slice` (convert/integer-slice-unsafe.go:41-48). -/
def unsafeByteSliceToUInt16Slice (req : SliceHeader) : SliceHeader := ⟨req.data, req.len / 2, req.cap / 2⟩

/-- `UnsafeUInt32SliceToByteSlice` (convert/integer-slice-unsafe.go:51-58). -/
def unsafeUInt32SliceToByteSlice (req : SliceHeader) : SliceHeader := ⟨req.data, req.len * 4, req.cap * 4⟩

/-- `UnsafeByteSliceToUInt32Slice` (convert/integer-slice-unsafe.go:61-68). -/
def unsafeByteSliceToUInt32Slice (req : SliceHeader) : SliceHeader := ⟨req.data, req.len / 4, req.cap / 4⟩

/-- `UnsafeUInt64SliceToByteSlice` (convert/integer-slice-unsafe.go:71-78). -/
def unsafeUInt64SliceToByteSlice (req : SliceHeader) : SliceHeader := ⟨req.data, req.len * 8, req.cap * 8⟩

/-- `UnsafeByteSliceToUInt64Slice` (convert/integer-slice-unsafe.go:81-88). -/
def unsafeByteSliceToUInt64Slice (req : SliceHeader) : SliceHeader := ⟨req.data, req.len / 8, req.cap / 8⟩

/-- `UnsafeInt8SliceToByteSlice` (convert/signed-integer-slice-unsafe.go:11-18). -/
def unsafeInt8SliceToByteSlice (req : SliceHeader) : SliceHeader := ⟨req.data, req.len, req.cap⟩

/-- `UnsafeByteSliceToInt8Slice` (convert/signed-integer-slice-unsafe.go:21-28). -/
def unsafeByteSliceToInt8Slice (req : SliceHeader) : SliceHeader := ⟨req.data, req.len, req.cap⟩

/-- `UnsafeInt16SliceToByteSlice` (convert/signed-integer-slice-unsafe.go:31-38). -/
def unsafeInt16SliceToByteSlice (req : SliceHeader) : SliceHeader := ⟨req.data, req.len * 2, req.cap * 2⟩

/-- `UnsafeByteSliceToInt16Slice` (convert/signed-integer-slice-unsafe.go:41-48). -/
def unsafeByteSliceToInt16Slice (req : SliceHeader) : SliceHeader := ⟨req.data, req.len / 2, req.cap / 2⟩

/-- `UnsafeInt32SliceToByteSlice` (convert/signed-integer-slice-unsafe.go:51-58). -/
def unsafeInt32SliceToByteSlice (req : SliceHeader) : SliceHeader := ⟨req.data, req.len * 4, req.cap * 4⟩

/-- `UnsafeByteSliceToInt32Slice` (convert/signed-integer-slice-unsafe.go:61-68). -/
def unsafeByteSliceToInt32Slice (req : SliceHeader) : SliceHeader := ⟨req.data, req.len / 4, req.cap / 4⟩

/-- `UnsafeInt64SliceToByteSlice` (convert/signed-integer-slice-unsafe.go:71-78). -/
def unsafeInt64SliceToByteSlice (req : SliceHeader) : SliceHeader := ⟨req.data, req.len * 8, req.cap * 8⟩

/-- `UnsafeByteSliceToInt64Slice` (convert/signed-integer-slice-unsafe.go:81-88). -/
def unsafeByteSliceToInt64Slice (req : SliceHeader) : SliceHeader := ⟨req.data, req.len / 8, req.cap / 8⟩

/-- `UnsafeStringToByteSlice` (convert/string-unsafe.go:11-18). -/
def unsafeStringToByteSlice (req : StringHeader) : SliceHeader := ⟨req.data, req.len, req.len⟩

/-- `UnsafeByteSliceToString` (convert/string-unsafe.go:21-27). -/
def unsafeByteSliceToString (req : SliceHeader) : StringHeader := ⟨req.data, req.len⟩

end Memar.Convert

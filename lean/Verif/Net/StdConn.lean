import Verif.Net.SocketProps

/-!
# A socket as a connection of the standard library: one-sided deadlines, writing, addresses and settings (C117, C118)

Model of the rest of net/std/net.go.
-/

namespace Memar.Net.Socket

/-- net/std/net.go:68-72: `SetReadDeadline`. -/
def Sock.setReadDeadline (s : Sock) (n1 n2 : Int) (t : Option Int) : Sock := s.setReadTimeout n1 n2 (untilTo t)

/-- net/std/net.go:73-77: `SetWriteDeadline`. -/
def Sock.setWriteDeadline (s : Sock) (n1 n2 : Int) (t : Option Int) : Sock := s.setWriteTimeout n1 n2 (untilTo t)

/-- net/std/net.go:30-33: `Write`, for `rounds` rounds of its loop. -/
def stdWrite (rounds : Nat) (b : Bytes) : Option Nat := unmarshalLoop rounds b 0

/-- A `net.TCPAddr` without its zone. -/
structure TcpAddr where
  ip : Bytes
  port : Nat
  deriving DecidableEq, Repr

/-- The two ends of a socket; the zero `TCPAddr` has no bytes of address. -/
structure Ends where
  loc : TcpAddr
  rem : TcpAddr
  deriving DecidableEq, Repr

/-- net/std/net.go:43-52: `LocalAddr`; the fields are commented out in the source. -/
def localAddr (_e : Ends) : TcpAddr := ⟨[], 0⟩

/-- net/std/net.go:53-62: `RemoteAddr`; likewise. -/
def remoteAddr (_e : Ends) : TcpAddr := ⟨[], 0⟩

/-- The settings of a connection of the standard library. -/
inductive StdSetting where
  | closeRead
  | closeWrite
  | linger (sec : Int)
  | keepAlive (on : Bool)
  | keepAlivePeriod (d : Int)
  | noDelay (on : Bool)
  deriving DecidableEq, Repr

/-- net/std/net.go:80-85: `CloseRead`, `CloseWrite`, `SetLinger`, `SetKeepAlive`, `SetKeepAlivePeriod` and `SetNoDelay` return
no error (`true`) and touch nothing. -/
def Sock.stdSet (s : Sock) : StdSetting → Sock × Bool
  | .closeRead => (s, true)
  | .closeWrite => (s, true)
  | .linger _ => (s, true)
  | .keepAlive _ => (s, true)
  | .keepAlivePeriod _ => (s, true)
  | .noDelay _ => (s, true)

/-- C117 violated: `SetReadDeadline` limits reading and `SetWriteDeadline` writing. Here, for every socket, clock and deadline ahead,
each leaves the limit of its own direction as it was and sets that of the other direction. -/
theorem C117_std_one_direction_violated (s : Sock) (n1 n2 ahead : Int) (h : 0 < ahead) :
    (s.setReadDeadline n1 n2 (some ahead)).readDeadline = s.readDeadline ∧
    (s.setReadDeadline n1 n2 (some ahead)).writeDeadline = n1 + ahead ∧
    (s.setWriteDeadline n1 n2 (some ahead)).writeDeadline = s.writeDeadline ∧
    (s.setWriteDeadline n1 n2 (some ahead)).readDeadline = n1 + ahead := by
  have hu : untilTo (some ahead) = ahead := by unfold untilTo; dsimp only; rw [if_neg (by omega)]
  unfold Sock.setReadDeadline Sock.setWriteDeadline
  rw [hu]
  obtain ⟨⟨a, b⟩, c, d⟩ := C263_read_write_swapped_violated s n1 n2 ahead
  exact ⟨a, b, c, d (by omega)⟩

example := C117_std_one_direction_violated ⟨⟨true, true, true, 100⟩, 3, 4, .unset, some (1, [])⟩ 20 21 500 (by decide)

/-- **C117** (partial: the two are exchanged): setting a deadline ahead for each direction, in either order, limits both.
Missing: a deadline for one direction (refuted: `C117_std_one_direction_violated`). -/
theorem C117_std_both_directions_partial (s : Sock) (n1 n2 n3 n4 r w : Int) (hr : 0 < r) (hw : 0 < w) :
    let a := (s.setReadDeadline n1 n2 (some r)).setWriteDeadline n3 n4 (some w)
    let b := (s.setWriteDeadline n3 n4 (some w)).setReadDeadline n1 n2 (some r)
    a.readDeadline = n3 + w ∧ a.writeDeadline = n1 + r ∧ b.readDeadline = n3 + w ∧ b.writeDeadline = n1 + r := by
  intro a b
  have a1 := C117_std_one_direction_violated s n1 n2 r hr
  have a2 := C117_std_one_direction_violated (s.setReadDeadline n1 n2 (some r)) n3 n4 w hw
  have b1 := C117_std_one_direction_violated s n3 n4 w hw
  have b2 := C117_std_one_direction_violated (s.setWriteDeadline n3 n4 (some w)) n1 n2 r hr
  exact ⟨a2.2.2.2, a2.2.2.1.trans a1.2.1, b2.1.trans b1.2.2.2, b2.2.1⟩

/-- The one-sided deadlines on a socket with a running timer: the deadline for reading is found in the field for writing. -/
example : ((⟨⟨true, true, true, 100⟩, 0, 0, .unset, none⟩ : Sock).setReadDeadline 20 21 (some 5)) =
    ⟨⟨true, true, true, 26⟩, 0, 25, .unset, none⟩ := by decide

/-- C221 violated: writing through the interface of the standard library returns the number of bytes written. Here it returns
only for no bytes at all, however long one waits. -/
theorem C221_std_write_violated (b : Bytes) : (∃ rounds n, stdWrite rounds b = some n) ↔ b = [] := by
  constructor
  · rintro ⟨rounds, n, h⟩
    refine Decidable.byContradiction fun hb => ?_
    rw [stdWrite, C221_send_never_returns_violated rounds b 0 hb] at h
    cases h
  · rintro rfl
    exact ⟨1, 0, rfl⟩

/-- C117 violated: the addresses of a connection are those of its two ends. Here every two connections answer the same addresses,
the same for both ends, and no connection answers its own port. -/
theorem C117_addresses_violated (e f : Ends) :
    localAddr e = localAddr f ∧ remoteAddr e = remoteAddr f ∧ localAddr e = remoteAddr e ∧
    (e.loc.port ≠ 0 → localAddr e ≠ e.loc) ∧ (e.rem.port ≠ 0 → remoteAddr e ≠ e.rem) := by
  refine ⟨rfl, rfl, rfl, fun h c => h ?_, fun h c => h ?_⟩ <;> (rw [← c]; rfl)

example : (⟨⟨[127, 0, 0, 1], 80⟩, ⟨[10, 0, 0, 1], 4000⟩⟩ : Ends).loc.port ≠ 0 := by decide

/-- C117 violated: closing one direction and the settings of a connection take effect or report an error. Here every one of them
reports success and leaves the socket as it was. -/
theorem C117_std_settings_violated (s : Sock) (sets : List StdSetting) :
    (sets.foldl (fun (r : Sock × Bool) (x : StdSetting) => ((r.1.stdSet x).1, r.2 && (r.1.stdSet x).2)) (s, true)) = (s, true) := by
  induction sets with
  | nil => rfl
  | cons x t ih => cases x <;> exact ih

example : (Sock.zero.stdSet (.keepAlivePeriod 30)) = (Sock.zero, true) := by decide

end Memar.Net.Socket

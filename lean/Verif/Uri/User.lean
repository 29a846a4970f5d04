import Verif.Uri.Model

/-!
# C156: user information of an URI, and writing an URI out

The writer of `WriteTo` and the codec of `Encode` are parameters.
-/

namespace Memar.Uri
open Memar

/-- net/uri/uri-user_Information.go:24-29 `Reinit` -/
def UserInformation.reinit (_ : UserInformation) : UserInformation := ⟨[], [], []⟩

/-- net/uri/uri-user_Information.go:38 -/
def UserInformation.setUserinfo (u : UserInformation) (ui : Bytes) : UserInformation := { u with userinfo := ui }
/-- net/uri/uri-user_Information.go:39 -/
def UserInformation.setUsername (u : UserInformation) (un : Bytes) : UserInformation := { u with username := un }
/-- net/uri/uri-user_Information.go:40 -/
def UserInformation.setPassword (u : UserInformation) (p : Bytes) : UserInformation := { u with password := p }

/-- A call that changes user information. -/
inductive UserOp where
  | init (ui : Bytes) | reinit | setUserinfo (ui : Bytes) | setUsername (un : Bytes) | setPassword (p : Bytes)

/-- The user information after a call. -/
def UserOp.run (u : UserInformation) : UserOp → UserInformation
  | .init ui => .init ui
  | .reinit => u.reinit
  | .setUserinfo ui => u.setUserinfo ui
  | .setUsername un => u.setUsername un
  | .setPassword p => u.setPassword p

/-- net/uri/uri.go:132-138 `WriteTo`: what the writer answers, and the URI afterwards; `write` answers a count and an error. -/
def URI.writeTo {ε : Type} (u : URI) (write : Bytes → Int × Option ε) : (Int × Option ε) × URI :=
  (write u.marshal.1, u.marshal.2)

/-- net/uri/uri.go:89-93 `Encode`: what the codec answers, and the URI afterwards. -/
def URI.encode {ε : Type} (u : URI) (unmarshal : Bytes → Int × Option ε) : (Int × Option ε) × URI :=
  (unmarshal u.marshal.1, u.marshal.2)

/-- net/uri/uri.go:84-87 `Decode`: the count, and the URI afterwards. -/
def URI.decode (u : URI) (_source : Bytes) : Int × URI := (0, u)

namespace USpec

/-- The user information of RFC 3986, 3.2.1: the name, and a password after the first colon if there is one. -/
def Consistent (u : UserInformation) : Prop :=
  ch ':' ∉ u.username ∧ (u.userinfo = u.username ++ ch ':' :: u.password ∨ (u.userinfo = u.username ∧ u.password = []))

end USpec
open USpec

theorem cut_consistent (s : Bytes) :
    ch ':' ∉ (cutByte s (ch ':')).1 ∧
      (s = (cutByte s (ch ':')).1 ++ ch ':' :: (cutByte s (ch ':')).2 ∨
        (s = (cutByte s (ch ':')).1 ∧ (cutByte s (ch ':')).2 = [])) := by
  unfold cutByte
  cases h : indexByte s (ch ':') with
  | none => exact ⟨(indexByte_none_iff _ _).1 h, .inr ⟨rfl, rfl⟩⟩
  | some i =>
    obtain ⟨h1, h2, -⟩ := indexByte_some s (ch ':') i h
    exact ⟨h2, .inl h1⟩

/-- **C156**: the name and the password are the two parts of the text at
its first colon. -/
theorem C156_read (u : UserInformation) (ui : Bytes) :
    Consistent (.init ui) ∧ (UserInformation.init ui).userinfo = ui ∧ Consistent u.reinit ∧
      u.reinit.userinfo = [] ∧ u.reinit.username = [] ∧ u.reinit.password = [] := by
  refine ⟨cut_consistent ui, rfl, ⟨by simp [UserInformation.reinit], .inr ⟨rfl, rfl⟩⟩, rfl, rfl, rfl⟩

/-- **C156**: each of the three texts is the one that was set last, by itself or by reading, in every history of calls. -/
theorem C156_last (u : UserInformation) (ops : List UserOp) (x : Bytes) (after : List UserOp) :
    ((∀ o ∈ after, ∀ y, o ≠ .init y ∧ o ≠ .reinit ∧ o ≠ .setUserinfo y) →
        ((ops ++ .setUserinfo x :: after).foldl UserOp.run u).userinfo = x) ∧
      ((∀ o ∈ after, ∀ y, o ≠ .init y ∧ o ≠ .reinit ∧ o ≠ .setUsername y) →
        ((ops ++ .setUsername x :: after).foldl UserOp.run u).username = x) ∧
      ((∀ o ∈ after, ∀ y, o ≠ .init y ∧ o ≠ .reinit ∧ o ≠ .setPassword y) →
        ((ops ++ .setPassword x :: after).foldl UserOp.run u).password = x) := by
  simp only [List.foldl_append, List.foldl_cons]
  generalize ops.foldl UserOp.run u = v
  refine ⟨?_, ?_, ?_⟩
  · suffices h : ∀ (w : UserInformation), w.userinfo = x → (∀ o ∈ after, ∀ y, o ≠ .init y ∧ o ≠ .reinit ∧ o ≠ .setUserinfo y) →
        (after.foldl UserOp.run w).userinfo = x from h _ rfl
    induction after with
    | nil => intro w h _; exact h
    | cons o t ih =>
      intro w h ho
      refine ih _ ?_ fun o' h' => ho o' (List.mem_cons_of_mem _ h')
      have := ho o List.mem_cons_self
      cases o with
      | init y => exact absurd rfl (this y).1
      | reinit => exact absurd rfl (this []).2.1
      | setUserinfo y => exact absurd rfl (this y).2.2
      | setUsername y => exact h
      | setPassword y => exact h
  · suffices h : ∀ (w : UserInformation), w.username = x → (∀ o ∈ after, ∀ y, o ≠ .init y ∧ o ≠ .reinit ∧ o ≠ .setUsername y) →
        (after.foldl UserOp.run w).username = x from h _ rfl
    induction after with
    | nil => intro w h _; exact h
    | cons o t ih =>
      intro w h ho
      refine ih _ ?_ fun o' h' => ho o' (List.mem_cons_of_mem _ h')
      have := ho o List.mem_cons_self
      cases o with
      | init y => exact absurd rfl (this y).1
      | reinit => exact absurd rfl (this []).2.1
      | setUserinfo y => exact h
      | setUsername y => exact absurd rfl (this y).2.2
      | setPassword y => exact h
  · suffices h : ∀ (w : UserInformation), w.password = x → (∀ o ∈ after, ∀ y, o ≠ .init y ∧ o ≠ .reinit ∧ o ≠ .setPassword y) →
        (after.foldl UserOp.run w).password = x from h _ rfl
    induction after with
    | nil => intro w h _; exact h
    | cons o t ih =>
      intro w h ho
      refine ih _ ?_ fun o' h' => ho o' (List.mem_cons_of_mem _ h')
      have := ho o List.mem_cons_self
      cases o with
      | init y => exact absurd rfl (this y).1
      | reinit => exact absurd rfl (this []).2.1
      | setUserinfo y => exact h
      | setUsername y => exact h
      | setPassword y => exact absurd rfl (this y).2.2

theorem consistent_cut (u : UserInformation) (h : Consistent u) : cutByte u.userinfo (ch ':') = (u.username, u.password) := by
  obtain ⟨hn, h | ⟨h, h2⟩⟩ := h
  · rw [h, cutByte, indexByte_append _ _ _ hn]
    simp [indexByte]
  · rw [h, h2, cutByte, (indexByte_none_iff _ _).2 hn]

/-- **C240** violated for set texts: user information that was consistent is not any more once its name is set to another one, its
password to another one, or its text to one with another name or password. -/
theorem C240_set_violated (u : UserInformation) (h : Consistent u) (x : Bytes) :
    (x ≠ u.username → ¬ Consistent (u.setUsername x)) ∧
      (x ≠ u.password → ¬ Consistent (u.setPassword x)) ∧
      (((UserInformation.init x).username ≠ u.username ∨ (UserInformation.init x).password ≠ u.password) →
        ¬ Consistent (u.setUserinfo x)) := by
  have h0 := consistent_cut u h
  refine ⟨fun hne h' => ?_, fun hne h' => ?_, fun hne h' => ?_⟩
  · have h1 := consistent_cut _ h'
    simp only [UserInformation.setUsername] at h1
    rw [h0] at h1
    exact hne (congrArg Prod.fst h1).symm
  · have h1 := consistent_cut _ h'
    simp only [UserInformation.setPassword] at h1
    rw [h0] at h1
    exact hne (congrArg Prod.snd h1).symm
  · have h1 := consistent_cut _ h'
    simp only [UserInformation.setUserinfo] at h1
    simp only [UserInformation.init, h1] at hne
    exact hne.elim (fun e => e rfl) (fun e => e rfl)

/-- **C156**: an URI is written out, and handed to a codec, as the text it is marshalled to; the caller gets the count and the error
of the writer. -/
theorem C156_write {ε : Type} (u : URI) (write : Bytes → Int × Option ε) :
    (u.writeTo write).1 = write u.marshal.1 ∧ (u.encode write).1 = write u.marshal.1 ∧
      (u.writeTo write).2 = u.marshal.2 ∧ (u.encode write).2 = u.marshal.2 := ⟨rfl, rfl, rfl, rfl⟩

/-- **C156**: writing it out again writes the same. -/
theorem C156_write_again {ε : Type} (u : URI) (write write' : Bytes → Int × Option ε) :
    ((u.writeTo write).2.writeTo write').1 = write' u.marshal.1 := by
  unfold URI.writeTo
  cases h : u.raw with
  | none => simp only [URI.marshal, h, URI.marshalTo']
  | some r => simp only [URI.marshal, h]

/-- **C240** violated for reading from a codec: nothing is read, and the count is 0. -/
theorem C240_decode_violated (u : URI) (source : Bytes) : u.decode source = (0, u) := rfl

example : Consistent (.init (bs "ab:cd")) ∧ (UserInformation.init (bs "ab:cd")).password = bs "cd" :=
  ⟨(C156_read {} _).1, by decide⟩
example : ¬ Consistent ((UserInformation.init (bs "ab:cd")).setUsername (bs "xy")) :=
  (C240_set_violated _ (C156_read {} _).1 _).1 (by decide)

end Memar.Uri

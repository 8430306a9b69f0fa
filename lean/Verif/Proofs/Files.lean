import Verif.Model.Files

/-!
# Bytes and characters
-/

namespace Verif

theorem utf8Bytes_eq (s : List Char) : utf8Bytes s = s.utf8Encode := rfl

theorem utf8Bytes_append (s t : List Char) : utf8Bytes (s ++ t) = utf8Bytes s ++ utf8Bytes t :=
  List.utf8Encode_append

theorem decode_utf8Bytes (s : List Char) : (utf8Bytes s).utf8Decode?.map Array.toList = some s := by
  rw [utf8Bytes_eq, List.utf8Decode?_utf8Encode]; rfl

theorem decode_eq_some {a : ByteArray} {s : List Char} (h : a.utf8Decode?.map Array.toList = some s) :
    a = utf8Bytes s := by
  cases hd : a.utf8Decode? with
  | none => rw [hd] at h; cases h
  | some x =>
    rw [hd] at h
    cases h
    have := ByteArray.utf8Encode_get_utf8Decode? (b := a) (h := by rw [hd]; rfl)
    simp only [hd, Option.get_some] at this
    exact this.symm

theorem utf8Bytes_inj {s t : List Char} (h : utf8Bytes s = utf8Bytes t) : s = t := by
  have := congrArg (fun a : ByteArray => a.utf8Decode?.map Array.toList) h
  simpa only [decode_utf8Bytes, Option.some.injEq] using this

/-- Bytes that begin with the bytes of a text: the characters do too. -/
theorem utf8Bytes_prefix {s t : List Char} {a : ByteArray} (h : utf8Bytes s ++ a = utf8Bytes t) :
    ∃ x, t = s ++ x ∧ a = utf8Bytes x := by
  obtain ⟨x, rfl⟩ := List.isPrefix_of_utf8Encode_append_eq_utf8Encode a h
  refine ⟨x, rfl, ?_⟩
  rw [utf8Bytes_append] at h
  exact ByteArray.append_right_inj _ |>.1 h

/-- The first bytes of a text, if they are a text. -/
theorem utf8Bytes_extract {s t : List Char} {n : Nat} (hn : n < (utf8Bytes s).size)
    (h : (utf8Bytes s).extract 0 n = utf8Bytes t) : ∃ x, x ≠ [] ∧ s = t ++ x := by
  have e : utf8Bytes t ++ (utf8Bytes s).extract n (utf8Bytes s).size = utf8Bytes s := by
    rw [← h, ← ByteArray.extract_eq_extract_append_extract n (Nat.zero_le _) hn.le, ByteArray.extract_zero_size]
  obtain ⟨x, hx, _⟩ := utf8Bytes_prefix e
  refine ⟨x, ?_, hx⟩
  rintro rfl
  rw [List.append_nil] at hx
  have := congrArg ByteArray.size h
  rw [ByteArray.size_extract, hx] at this
  rw [hx] at hn
  omega

end Verif

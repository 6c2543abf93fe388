import Verif.Base.Text
/-! UTF-8 bytes of a string (`str::as_bytes`). -/
namespace Siphon

abbrev Bytes := List UInt8

/-- `str::as_bytes`. -/
def utf8 (s : Str) : Bytes := s.flatMap String.utf8EncodeChar

theorem utf8_append (a b : Str) : utf8 (a ++ b) = utf8 a ++ utf8 b := by
  simp [utf8]

theorem utf8_inj {a b : Str} (h : utf8 a = utf8 b) : a = b := by
  have : a.utf8Encode = b.utf8Encode := by
    simp only [List.utf8Encode]
    unfold utf8 at h
    rw [h]
  have h2 : String.ofList a = String.ofList b := by
    apply String.toByteArray_inj.mp
    simpa using this
  simpa using congrArg String.toList h2

theorem length_utf8 (s : Str) : (utf8 s).length = utf8Len s := by
  induction s with
  | nil => rfl
  | cons c t ih =>
    simp only [utf8, utf8Len, List.flatMap_cons, List.length_append, List.map_cons, List.sum_cons] at ih ⊢
    rw [ih, String.length_utf8EncodeChar]

end Siphon

import Verif.Core.HeadersProps
/-! The first header of a name, in terms of the specification. -/
namespace Siphon
open HdrSpec

theorem getAll_cons_iff (hs : Headers) (n v : Str) : hs.get n = some v ↔ ∃ more, hs.getAll n = v :: more := by
  obtain ⟨l⟩ := hs
  unfold Headers.get Headers.getHeader Headers.getAll
  simp only
  induction l with
  | nil => simp
  | cons h t ih =>
    simp only [List.find?_cons, List.filter_cons]
    cases hn : h.nameEq n with
    | true => simp
    | false => simpa using ih

/-- The value returned is the first one. -/
theorem get_iff (hs : Headers) (n v : Str) : hs.get n = some v ↔ ∃ more, Selects n hs.inner (v :: more) := by
  rw [getAll_cons_iff]
  constructor
  · rintro ⟨m, h⟩
    exact ⟨m, h ▸ C24_getAll hs n⟩
  · rintro ⟨m, h⟩
    exact ⟨m, selects_unique (C24_getAll hs n) h⟩

theorem get_none_iff (hs : Headers) (n : Str) : hs.get n = none ↔ Selects n hs.inner [] := by
  constructor
  · intro h
    cases hg : hs.getAll n with
    | nil => exact hg ▸ C24_getAll hs n
    | cons v m =>
      have := (getAll_cons_iff hs n v).2 ⟨m, hg⟩
      rw [h] at this; cases this
  · intro h
    cases hg : hs.get n with
    | none => rfl
    | some v =>
      obtain ⟨m, hm⟩ := (get_iff hs n v).1 hg
      have := selects_unique hm h
      cases this

end Siphon

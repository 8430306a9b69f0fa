import Verif.Props.Json
import Verif.Spec.ExampleText

/-!
# C121: the text of a saved model
-/

namespace Verif

open scoped Verif

variable {F D : Type} [Fl F] [Fl D] {N : NumText F D} {st : JStyle}

/-- The two writers: `json_dump` itself, and Python's `json.dumps` after `json.loads` of that text. -/
def KnownStyle (st : JStyle) : Prop := st = serdeStyle ∨ st = pythonStyle

theorem KnownStyle.ok (h : KnownStyle st) : st.Ok := by
  rcases h with rfl | rfl
  · exact serdeStyle_ok
  · exact pythonStyle_ok

/-- White space of JSON, spelled out. -/
def Blank (s : List Char) : Prop := ∀ c ∈ s, c = ' ' ∨ c = '\n' ∨ c = '\t' ∨ c = '\r'

theorem blank_iff {s : List Char} : Blank s ↔ ∀ c ∈ s, jsonSpace c = true := by
  unfold Blank jsonSpace
  simp only [Bool.or_eq_true, decide_eq_true_eq]
  exact forall₂_congr fun c _ => by tauto

/-- C121.  A storable model is read back exactly from its text, as `json_dump` or Python's `json` writes it, with
white space around it. -/
theorem C121_round_trip (hN : N.Exact) (hst : KnownStyle st) (b : Booster F D) (hb : b.Storable) (u v : List Char)
    (hu : Blank u) (hv : Blank v) : Booster.fromText N (u ++ b.dumpText N st ++ v) = .ok b := by
  rw [fromText_spaces hN hst.ok b (blank_iff.1 hu) (blank_iff.1 hv), C26_round_trip b hb]

/-- C121.  For any model, storable or not, reading the text is reading the document. -/
theorem C121_document (hN : N.Exact) (hst : KnownStyle st) (b : Booster F D) :
    Booster.fromText N (b.dumpText N st) = Booster.fromJson b.jsonDump := by
  have := fromText_spaces hN hst.ok b (u := []) (v := []) (by simp) (by simp)
  rwa [List.nil_append, List.append_nil] at this

/-- C121.  A text that was cut short anywhere is refused: no file that was written in part is read as another
model. -/
theorem C121_truncated (hN : N.Exact) (hst : KnownStyle st) (b : Booster F D) (p x : List Char) (hx : x ≠ [])
    (h : b.dumpText N st = p ++ x) : Booster.fromText N p = .error .unableToRead := by
  have hp : parseJson p = none := by
    cases hp : parseJson p with
    | none => rfl
    | some j =>
      exfalso
      have h1 := parse_dumpText hN hst.ok b
      obtain ⟨s, hs⟩ := dumpText_brace (N := N) (st := st) b
      obtain ⟨e, he⟩ := dumpText_last (N := N) (st := st) b
      rw [h] at h1
      cases p with
      | nil => cases hp
      | cons c p =>
        rw [h, List.cons_append] at hs
        cases hs
        have h2 := (parseJson_longer hp h1).2
        rw [h] at he
        obtain ⟨x', rfl⟩ : ∃ x', x = x' ++ ['}'] := by
          have e1 := congrArg List.getLast? he
          rw [List.getLast?_append_of_ne_nil _ hx, List.getLast?_concat] at e1
          exact ⟨x.dropLast, (List.dropLast_append_getLast? _ e1).symm⟩
        have := h2 '}' (by simp)
        revert this; decide
  rw [Booster.fromText, hp]
  rfl

/-- C121.  A text that is followed by anything else than white space is refused. -/
theorem C121_trailing (hN : N.Exact) (hst : KnownStyle st) (b : Booster F D) (x : List Char) (hx : ¬ Blank x) :
    Booster.fromText N (b.dumpText N st ++ x) = .error .unableToRead := by
  have hp : parseJson (b.dumpText N st ++ x) = none := by
    cases hp : parseJson (b.dumpText N st ++ x) with
    | none => rfl
    | some j =>
      exfalso
      have h1 := parse_dumpText hN hst.ok b
      obtain ⟨s, hs⟩ := dumpText_brace (N := N) (st := st) b
      rw [hs] at h1 hp
      exact hx (blank_iff.2 (parseJson_longer h1 hp).2)
  rw [Booster.fromText, hp]
  rfl

/-- C121.  Different storable models have different texts. -/
theorem C121_injective (hN : N.Exact) (hst : KnownStyle st) (b b' : Booster F D) (hb : b.Storable)
    (hb' : b'.Storable) (h : b.dumpText N st = b'.dumpText N st) : b = b' := by
  have h1 := C121_round_trip hN hst b hb [] [] (by simp [Blank]) (by simp [Blank])
  have h2 := C121_round_trip hN hst b' hb' [] [] (by simp [Blank]) (by simp [Blank])
  rw [h, h2] at h1
  cases h1; rfl

/-! ### Examples -/

/-- Metadata with a quote, a backslash, a line break, a control character, a letter outside ASCII and a character
outside the basic plane. -/
def exTextBooster : Booster Q Q := { exBooster with metadata := [("a\"b\\\n", "\x01é😀")] }

theorem exTextBooster_storable : exTextBooster.Storable :=
  { exBooster_storable with metadata := by decide +kernel }

example : Booster.fromText exNumText (exTextBooster.dumpText exNumText serdeStyle ++ ['\n']) = .ok exTextBooster :=
  C121_round_trip exNumText_exact (.inl rfl) exTextBooster exTextBooster_storable [] ['\n'] (by simp [Blank])
    (by simp [Blank])

example : Booster.fromText exNumText (exTextBooster.dumpText exNumText pythonStyle) = .ok exTextBooster := by
  rw [C121_document exNumText_exact (.inr rfl), C26_round_trip _ exTextBooster_storable]

example : serdeStyle.quote "\x01é😀".toList = "\"\\u0001é😀\"".toList := by decide +kernel
example : pythonStyle.quote "\x01é😀".toList = "\"\\u0001\\u00e9\\ud83d\\ude00\"".toList := by decide +kernel

/-- A tail cut off in the middle of the member names. -/
example : ∃ p x, x ≠ [] ∧ exTextBooster.dumpText exNumText serdeStyle = p ++ x ∧ 100 ≤ p.length := by
  refine ⟨(exTextBooster.dumpText exNumText serdeStyle).take 100,
    (exTextBooster.dumpText exNumText serdeStyle).drop 100, ?_, (List.take_append_drop _ _).symm, ?_⟩
  all_goals decide +kernel

end Verif

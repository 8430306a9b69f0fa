import Verif.Proofs.Files
import Verif.Props.JsonText

/-!
# C124: saving to a file and loading from it
-/

namespace Verif

open scoped Verif

variable {F D P : Type} [Fl F] [Fl D] {N : NumText F D}

/-- One call of `save_booster`: the model, the path, and what the operating system makes of it. -/
structure SaveCall (F D P : Type) where
  model : Booster F D
  path : P
  fate : WriteFate

/-- The disk after a sequence of calls of `save_booster`. -/
def diskAfter [DecidableEq P] (N : NumText F D) (d : Disk P) (calls : List (SaveCall F D P)) : Disk P :=
  calls.foldl (fun d c => (c.model.saveBooster N d c.path c.fate).1) d

/-- White space of JSON, as bytes. -/
def BlankBytes (a : ByteArray) : Prop := ∀ c ∈ a.data.toList, c = 0x20 ∨ c = 0x0a ∨ c = 0x09 ∨ c = 0x0d

theorem load_of_text {d : Disk P} {readable : P → Bool} {p : P} (hp : readable p = true) {s : List Char}
    (h : d p = some (utf8Bytes s)) : Booster.loadBooster N d readable p = Booster.fromText N s := by
  rw [Booster.loadBooster, readToString, if_pos hp, h, Option.bind_some, decode_utf8Bytes]

/-- What a file gives whose bytes are the text of no model. -/
theorem load_refused {d : Disk P} {readable : P → Bool} {p : P} {a : ByteArray} (h : d p = some a)
    (ha : ∀ s, a = utf8Bytes s → Booster.fromText N s = .error .unableToRead) :
    Booster.loadBooster N d readable p = .error .unableToRead := by
  rw [Booster.loadBooster, readToString]
  split
  · rfl
  · rename_i s hs
    split at hs
    · rw [h, Option.bind_some] at hs
      exact ha s (decode_eq_some hs)
    · cases hs

/-- C124.  A save that reports success can be loaded: the same model comes back, whatever was in the file before, and
the other files are untouched. -/
theorem C124_round_trip [DecidableEq P] (hN : N.Exact) (b : Booster F D) (hb : b.Storable) (d d' : Disk P) (p : P)
    (fate : WriteFate) (h : b.saveBooster N d p fate = (d', .ok ())) (readable : P → Bool) (hp : readable p = true) :
    Booster.loadBooster N d' readable p = .ok b ∧ ∀ x ≠ p, d' x = d x := by
  cases fate with
  | refused => cases h
  | stopped n => cases h
  | done =>
    cases h
    refine ⟨?_, fun x hx => if_neg hx⟩
    rw [load_of_text hp (s := b.dumpText N serdeStyle) (if_pos rfl)]
    simpa using C121_round_trip hN (.inl rfl) b hb [] [] (by simp [Blank]) (by simp [Blank])

/-- A file that holds only the first bytes of a saved model is refused, also when the cut is inside a character. -/
theorem C124_cut (hN : N.Exact) (b : Booster F D) (d : Disk P) (p : P) (n : Nat)
    (hn : n < (utf8Bytes (b.dumpText N serdeStyle)).size)
    (h : d p = some ((utf8Bytes (b.dumpText N serdeStyle)).extract 0 n)) (readable : P → Bool) :
    Booster.loadBooster N d readable p = .error .unableToRead :=
  load_refused h fun s hs => by
    obtain ⟨x, hx, e⟩ := utf8Bytes_extract hn hs
    exact C121_truncated hN (.inl rfl) b s x hx e

/-- C124.  The state of a path after any sequence of saves, by any models, to any paths, interrupted or not.  If no
save to the path got as far as opening the file, the file is as before.  Otherwise the last save that did decides
alone: the file gives that model if all bytes were written, and is refused if not.  It is never read as an older model
or as a mixture. -/
theorem C124_history [DecidableEq P] (hN : N.Exact) (d : Disk P) (p : P) (readable : P → Bool) (hp : readable p = true)
    (calls : List (SaveCall F D P)) (hs : ∀ c ∈ calls, c.model.Storable) :
    ((∀ c ∈ calls, c.path = p → c.fate = .refused) → diskAfter N d calls p = d p) ∧
    (∀ u c v, calls = u ++ c :: v → c.path = p → (∀ c' ∈ v, c'.path = p → c'.fate = .refused) →
      (c.fate = .done → Booster.loadBooster N (diskAfter N d calls) readable p = .ok c.model) ∧
      (∀ n, c.fate = .stopped n →
        Booster.loadBooster N (diskAfter N d calls) readable p =
          if n < (utf8Bytes (c.model.dumpText N serdeStyle)).size then .error .unableToRead else .ok c.model)) := by
  have quiet : ∀ (calls : List (SaveCall F D P)) (d : Disk P), (∀ c ∈ calls, c.path = p → c.fate = .refused) →
      diskAfter N d calls p = d p := by
    intro calls
    induction calls with
    | nil => intro d _; rfl
    | cons c calls ih =>
      intro d h
      rw [diskAfter, List.foldl_cons, ← diskAfter, ih _ fun c' hc' => h c' (List.mem_cons_of_mem _ hc')]
      rw [Booster.saveBooster]
      by_cases hcp : c.path = p
      · rw [h c (List.mem_cons_self ..) hcp]; rfl
      · cases c.fate with
        | refused => rfl
        | stopped n => exact if_neg fun e => hcp e.symm
        | done => exact if_neg fun e => hcp e.symm
  refine ⟨quiet calls d, ?_⟩
  intro u c v e hc hv
  have hcs : c.model.Storable := hs c (by rw [e]; simp)
  have hd : diskAfter N d calls p = (c.model.saveBooster N (diskAfter N d u) c.path c.fate).1 p := by
    rw [e, diskAfter, List.foldl_append, List.foldl_cons, ← diskAfter, ← diskAfter, quiet v _ hv]
  have good : ∀ d' : Disk P, d' p = some (utf8Bytes (c.model.dumpText N serdeStyle)) →
      Booster.loadBooster N d' readable p = .ok c.model := by
    intro d' h'
    rw [load_of_text hp h']
    simpa using C121_round_trip hN (.inl rfl) c.model hcs [] [] (by simp [Blank]) (by simp [Blank])
  constructor
  · intro hf
    apply good
    rw [hd, hf, ← hc]
    exact if_pos rfl
  · intro n hf
    have hd' : diskAfter N d calls p = some ((utf8Bytes (c.model.dumpText N serdeStyle)).extract 0 n) := by
      rw [hd, hf, ← hc]; exact if_pos rfl
    split
    · rename_i hn
      exact C124_cut hN c.model _ p n hn hd' readable
    · rename_i hn
      apply good
      rw [hd']
      congr 1
      apply ByteArray.ext
      rw [ByteArray.data_extract]
      exact Array.extract_eq_self_of_le (by rw [ByteArray.size_data]; omega)

/-- C124.  A saved model followed by further bytes is refused unless they are white space: an old, longer file that
was overwritten without being truncated would not be read. -/
theorem C124_trailing (hN : N.Exact) (b : Booster F D) (d : Disk P) (p : P) (a : ByteArray) (ha : ¬ BlankBytes a)
    (h : d p = some (utf8Bytes (b.dumpText N serdeStyle) ++ a)) (readable : P → Bool) :
    Booster.loadBooster N d readable p = .error .unableToRead :=
  load_refused h fun s hs => by
    obtain ⟨x, rfl, rfl⟩ := utf8Bytes_prefix hs
    refine C121_trailing hN (.inl rfl) b x fun hx => ha ?_
    intro c hc
    rw [utf8Bytes] at hc
    simp only [List.data_toByteArray, List.mem_flatMap] at hc
    obtain ⟨k, hk, hc⟩ := hc
    rcases hx k hk with rfl | rfl | rfl | rfl <;> revert hc <;> revert c <;> decide +kernel

/-- C124.  A file with a byte order mark in front, as some editors write it, is refused. -/
theorem C124_byte_order_mark (b : Booster F D) (d : Disk P) (p : P)
    (h : d p = some ([0xef, 0xbb, 0xbf].toByteArray ++ utf8Bytes (b.dumpText N serdeStyle)))
    (readable : P → Bool) : Booster.loadBooster N d readable p = .error .unableToRead :=
  load_refused h fun s hs => by
    have e : [0xef, 0xbb, 0xbf].toByteArray = utf8Bytes ['\uFEFF'] := by decide +kernel
    rw [e, ← utf8Bytes_append] at hs
    rw [← utf8Bytes_inj hs]
    rfl

/-- C124.  Different storable models have different files. -/
theorem C124_injective (hN : N.Exact) (b b' : Booster F D) (hb : b.Storable) (hb' : b'.Storable)
    (h : utf8Bytes (b.dumpText N serdeStyle) = utf8Bytes (b'.dumpText N serdeStyle)) : b = b' :=
  C121_injective hN (.inl rfl) b b' hb hb' (utf8Bytes_inj h)

/-! ### Examples -/

/-- A save, an interrupted save to the same path, and a save elsewhere. -/
def exSaves : List (SaveCall Q Q String) :=
  [⟨exBooster, "a", .done⟩, ⟨exTextBooster, "b", .done⟩, ⟨exTextBooster, "a", .stopped 9⟩, ⟨exBooster, "b", .refused⟩]

example : Booster.loadBooster exNumText (diskAfter exNumText (fun _ => none) exSaves) (fun _ => true) "a" =
    .error .unableToRead := by
  have h := ((C124_history exNumText_exact (fun _ => none) "a" (fun _ => true) rfl exSaves (by
    simp only [exSaves, List.forall_mem_cons]
    exact ⟨exBooster_storable, exTextBooster_storable, exTextBooster_storable, exBooster_storable, by simp⟩)).2
    (exSaves.take 2) ⟨exTextBooster, "a", .stopped 9⟩ (exSaves.drop 3) rfl rfl (by simp [exSaves])).2 9 rfl
  rw [if_pos (by rw [utf8Bytes, List.size_toByteArray]; decide +kernel)] at h
  exact h

example : Booster.loadBooster exNumText (diskAfter exNumText (fun _ => none) exSaves) (fun _ => true) "b" =
    .ok exTextBooster :=
  ((C124_history exNumText_exact (fun _ => none) "b" (fun _ => true) rfl exSaves (by
    simp only [exSaves, List.forall_mem_cons]
    exact ⟨exBooster_storable, exTextBooster_storable, exTextBooster_storable, exBooster_storable, by simp⟩)).2
    (exSaves.take 1) ⟨exTextBooster, "b", .done⟩ (exSaves.drop 2) rfl rfl (by simp [exSaves])).1 rfl

example : (exTextBooster.saveBooster exNumText (fun _ : String => none) "a" .done).2 = .ok () := rfl

/-- The text of this model is not ASCII: there are cuts inside a character. -/
example : (exTextBooster.dumpText exNumText serdeStyle).length <
    (utf8Bytes (exTextBooster.dumpText exNumText serdeStyle)).size := by
  rw [utf8Bytes, List.size_toByteArray]; decide +kernel

example : ¬ BlankBytes [0x20, 0x7d].toByteArray := by unfold BlankBytes; decide +kernel

end Verif

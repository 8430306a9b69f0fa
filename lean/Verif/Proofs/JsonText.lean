import Verif.Model.JsonText

/-!
# Reading JSON text
-/

namespace Verif

/-- A text that does not continue a number. -/
def Stops (x : List Char) : Prop :=
  ∀ c, x.head? = some c → jsonDigit c = false ∧ c ≠ '.' ∧ c ≠ 'e' ∧ c ≠ 'E'

theorem Stops.nil : Stops [] := by intro c h; cases h

theorem Stops.cons {c : Char} {x : List Char} (h : jsonDigit c = false ∧ c ≠ '.' ∧ c ≠ 'e' ∧ c ≠ 'E') :
    Stops (c :: x) := by
  intro d hd; cases hd; exact h

theorem takeWhile_stops {x : List Char} (h : Stops x) : x.takeWhile jsonDigit = [] := by
  cases x with
  | nil => rfl
  | cons c x => rw [List.takeWhile_cons, (h c rfl).1]; rfl

theorem dropWhile_stops {x : List Char} (h : Stops x) : x.dropWhile jsonDigit = x := by
  cases x with
  | nil => rfl
  | cons c x => rw [List.dropWhile_cons, (h c rfl).1]; rfl

theorem span_digits_append (s : List Char) {x : List Char} (h : s.dropWhile jsonDigit = [] → Stops x) :
    (s ++ x).takeWhile jsonDigit = s.takeWhile jsonDigit ∧
      (s ++ x).dropWhile jsonDigit = s.dropWhile jsonDigit ++ x := by
  induction s with
  | nil => exact ⟨takeWhile_stops (h rfl), dropWhile_stops (h rfl)⟩
  | cons c s ih =>
    rw [List.cons_append, List.takeWhile_cons, List.takeWhile_cons, List.dropWhile_cons, List.dropWhile_cons]
    rw [List.dropWhile_cons] at h
    split
    · rename_i hc
      rw [if_pos hc] at h
      exact ⟨by rw [(ih h).1], (ih h).2⟩
    · exact ⟨rfl, rfl⟩

theorem readDigits_append {s ds r x : List Char} (h : readDigits s = some (ds, r)) (hx : r = [] → Stops x) :
    readDigits (s ++ x) = some (ds, r ++ x) := by
  unfold readDigits at h ⊢
  simp only at h ⊢
  split at h
  · cases h
  · rename_i hn
    simp only [Option.some.injEq, Prod.mk.injEq] at h
    obtain ⟨rfl, rfl⟩ := h
    obtain ⟨e1, e2⟩ := span_digits_append s hx
    rw [e1, e2, if_neg hn]

theorem readInt_append {s i r x : List Char} (h : readInt s = some (i, r)) (hx : r = [] → Stops x) :
    readInt (s ++ x) = some (i, r ++ x) := by
  cases s with
  | nil => cases h
  | cons c s =>
    rw [List.cons_append]
    unfold readInt at h ⊢
    dsimp only at h ⊢
    split at h
    · rename_i hc
      rw [if_pos hc]; cases h; rfl
    · rename_i hc
      rw [if_neg hc]
      exact readDigits_append h hx

theorem readFraction_append {s f r x : List Char} (h : readFraction s = some (f, r)) (hx : r = [] → Stops x) :
    readFraction (s ++ x) = some (f, r ++ x) := by
  cases s with
  | nil =>
    cases h
    cases x with
    | nil => rfl
    | cons c x =>
      show readFraction (c :: x) = _
      unfold readFraction
      dsimp only
      rw [if_neg (hx rfl c rfl).2.1]; rfl
  | cons c s =>
    rw [List.cons_append]
    unfold readFraction at h ⊢
    dsimp only at h ⊢
    split at h
    · rename_i hc
      rw [if_pos hc]
      simp only [Option.bind_eq_bind, Option.bind_eq_some_iff] at h ⊢
      obtain ⟨⟨ds, r'⟩, h1, h2⟩ := h
      cases h2
      exact ⟨_, readDigits_append h1 hx, rfl⟩
    · rename_i hc
      rw [if_neg hc]; cases h; rfl

theorem readSign_append {s x : List Char} (h : s ≠ []) :
    readSign (s ++ x) = ((readSign s).1, (readSign s).2 ++ x) := by
  cases s with
  | nil => exact absurd rfl h
  | cons c s =>
    rw [List.cons_append]
    unfold readSign
    dsimp only
    split <;> rfl

theorem readMinus_append {s x : List Char} (h : s ≠ []) :
    readMinus (s ++ x) = ((readMinus s).1, (readMinus s).2 ++ x) := by
  cases s with
  | nil => exact absurd rfl h
  | cons c s =>
    rw [List.cons_append]
    unfold readMinus
    dsimp only
    split <;> rfl

theorem readExponent_append {s f r x : List Char} (h : readExponent s = some (f, r)) (hx : r = [] → Stops x) :
    readExponent (s ++ x) = some (f, r ++ x) := by
  cases s with
  | nil =>
    cases h
    cases x with
    | nil => rfl
    | cons c x =>
      show readExponent (c :: x) = _
      unfold readExponent
      dsimp only
      rw [if_neg (by simpa using (hx rfl c rfl).2.2)]; rfl
  | cons c s =>
    rw [List.cons_append]
    unfold readExponent at h ⊢
    dsimp only at h ⊢
    split at h
    · rename_i hc
      rw [if_pos hc]
      simp only [Option.bind_eq_bind, Option.bind_eq_some_iff] at h ⊢
      obtain ⟨⟨ds, r'⟩, h1, h2⟩ := h
      cases h2
      have hs : s ≠ [] := by rintro rfl; cases h1
      refine ⟨(ds, r' ++ x), ?_, ?_⟩
      · rw [readSign_append hs]; exact readDigits_append h1 hx
      · rw [readSign_append hs]
    · rename_i hc
      rw [if_neg hc]; cases h; rfl

theorem readNumber_append {s t r x : List Char} (h : readNumber s = some (t, r)) (hx : r = [] → Stops x) :
    readNumber (s ++ x) = some (t, r ++ x) := by
  unfold readNumber at h ⊢
  simp only [Option.bind_eq_bind, Option.bind_eq_some_iff] at h ⊢
  obtain ⟨⟨i, s1⟩, h1, ⟨f, s2⟩, h2, ⟨e, s3⟩, h3, h4⟩ := h
  have hs : s ≠ [] := by rintro rfl; cases h1
  rw [readMinus_append hs]
  simp only at h1 h2 h3
  cases h4
  have x3 := readExponent_append h3 hx
  have n2 : s2 = [] → Stops x := by
    rintro rfl
    unfold readExponent at h3
    cases h3
    exact hx rfl
  have x2 := readFraction_append h2 n2
  have n1 : s1 = [] → Stops x := by
    rintro rfl
    unfold readFraction at h2
    cases h2
    exact n2 rfl
  exact ⟨(i, s1 ++ x), readInt_append h1 n1, (f, s2 ++ x), x2, _, x3, rfl⟩

theorem readHex4_append {s r x : List Char} {n : Nat} (h : readHex4 s = some (n, r)) :
    readHex4 (s ++ x) = some (n, r ++ x) := by
  unfold readHex4 at h
  split at h
  · simp only [Option.bind_eq_bind, Option.bind_eq_some_iff] at h
    obtain ⟨a, h1, b, h2, c, h3, d, h4, h5⟩ := h
    cases h5
    simp only [readHex4, List.cons_append, Option.bind_eq_bind, h1, h2, h3, h4, Option.bind_some]
  · cases h

theorem readLow_append {hi : Nat} {s r x : List Char} {c : Char} (h : readLow hi s = some (c, r)) :
    readLow hi (s ++ x) = some (c, r ++ x) := by
  unfold readLow at h
  split at h
  · rename_i r'
    simp only [Option.bind_eq_bind, Option.bind_eq_some_iff] at h
    obtain ⟨⟨lo, r2⟩, h1, h2⟩ := h
    simp only at h2
    rw [List.cons_append, List.cons_append]
    unfold readLow
    simp only [Option.bind_eq_bind, readHex4_append h1, Option.bind_some]
    split at h2
    · rename_i hc
      rw [if_pos hc]
      simp only [Option.some.injEq, Prod.mk.injEq] at h2 ⊢
      exact ⟨h2.1, by rw [h2.2]⟩
    · cases h2
  · cases h

theorem readEscape_append {s r x : List Char} {c : Char} (h : readEscape s = some (c, r)) :
    readEscape (s ++ x) = some (c, r ++ x) := by
  cases s with
  | nil => cases h
  | cons d s =>
    rw [List.cons_append]
    unfold readEscape at h ⊢
    dsimp only at h ⊢
    repeat' split at h
    all_goals first
      | (rename_i hc; simp only [*, if_true, if_false, Char.reduceEq]; cases h; rfl)
      | skip
    · rename_i hc
      simp only [*, if_true, if_false]
      simp only [Option.bind_eq_bind, Option.bind_eq_some_iff] at h
      obtain ⟨⟨n, r2⟩, h1, h2⟩ := h
      simp only [Option.bind_eq_bind, readHex4_append h1, Option.bind_some]
      simp only at h2
      split at h2
      · cases h2
      · rename_i g1
        rw [if_neg g1]
        split at h2
        · rename_i g2
          rw [if_pos g2]; exact readLow_append h2
        · rename_i g2
          rw [if_neg g2]; cases h2; rfl
    · cases h

theorem readChars_append {x : List Char} : ∀ {n m : Nat} {s a r : List Char}, n ≤ m →
    readChars n s = some (a, r) → readChars m (s ++ x) = some (a, r ++ x) := by
  intro n
  induction n with
  | zero => intro m s a r _ h; cases h
  | succ n ih =>
    intro m s a r hm h
    obtain ⟨m, rfl⟩ : ∃ k, m = k + 1 := ⟨m - 1, by omega⟩
    cases s with
    | nil => cases h
    | cons c s =>
      rw [List.cons_append]
      unfold readChars at h ⊢
      dsimp only at h ⊢
      split at h
      · rename_i hc
        rw [if_pos hc]; cases h; rfl
      · rename_i hc
        rw [if_neg hc]
        split at h
        · rename_i hd
          rw [if_pos hd]
          simp only [Option.bind_eq_bind, Option.bind_eq_some_iff] at h ⊢
          obtain ⟨⟨d, r1⟩, h1, ⟨s2, r2⟩, h2, h3⟩ := h
          cases h3
          exact ⟨(d, r1 ++ x), readEscape_append h1, _, ih (by omega) h2, rfl⟩
        · rename_i hd
          rw [if_neg hd]
          split at h
          · cases h
          · rename_i he
            rw [if_neg he]
            simp only [Option.bind_eq_bind, Option.bind_eq_some_iff] at h ⊢
            obtain ⟨⟨s2, r2⟩, h2, h3⟩ := h
            cases h3
            exact ⟨_, ih (by omega) h2, rfl⟩

theorem readString_append {x s a r : List Char} (h : readString s = some (a, r)) :
    readString (s ++ x) = some (a, r ++ x) :=
  readChars_append (by rw [List.length_append]; omega) h

theorem skipSpace_append {s t x : List Char} {c : Char} (h : skipSpace s = c :: t) :
    skipSpace (s ++ x) = c :: (t ++ x) := by
  unfold skipSpace at h ⊢
  induction s with
  | nil => cases h
  | cons d s ih =>
    rw [List.dropWhile_cons] at h
    rw [List.cons_append, List.dropWhile_cons]
    split at h
    · rename_i hd
      rw [if_pos hd]; exact ih h
    · rename_i hd
      rw [if_neg hd]; cases h; rfl

theorem readWord_append {w s r x : List Char} {v v' : JText} (h : readWord w v s = some (v', r)) :
    readWord w v (s ++ x) = some (v', r ++ x) := by
  unfold readWord at h ⊢
  split at h
  · rename_i hp
    obtain ⟨t, rfl⟩ := hp
    cases h
    rw [if_pos ⟨t ++ x, by simp⟩]
    simp
  · cases h

/-- What is read does not depend on what follows, unless a number touches the end of the text. -/
theorem read_append {x : List Char} (n : Nat) :
    (∀ m, n ≤ m → ∀ s v r, readValue n s = some (v, r) → (r = [] → Stops x) →
      readValue m (s ++ x) = some (v, r ++ x)) ∧
    (∀ m, n ≤ m → ∀ s v r, readElems n s = some (v, r) → readElems m (s ++ x) = some (v, r ++ x)) ∧
    (∀ m, n ≤ m → ∀ s v r, readMembers n s = some (v, r) → readMembers m (s ++ x) = some (v, r ++ x)) := by
  induction n with
  | zero =>
    refine ⟨?_, ?_, ?_⟩ <;> (intro m _ s v r h)
    · simp [readValue] at h
    · simp [readElems] at h
    · simp [readMembers] at h
  | succ n ih =>
    obtain ⟨ih1, ih2, ih3⟩ := ih
    refine ⟨?_, ?_, ?_⟩
    · intro m hm s v r h hx
      obtain ⟨m, rfl⟩ : ∃ k, m = k + 1 := ⟨m - 1, by omega⟩
      rw [readValue] at h ⊢
      split at h
      · cases h
      · rename_i c t hs
        rw [skipSpace_append hs]
        simp only
        split at h
        · rename_i hc
          rw [if_pos hc]
          simp only [Option.bind_eq_bind, Option.bind_eq_some_iff] at h ⊢
          obtain ⟨⟨a, r1⟩, h1, h2⟩ := h
          cases h2
          exact ⟨_, readString_append h1, rfl⟩
        · rename_i hc
          rw [if_neg hc]
          split at h
          · rename_i hc
            rw [if_pos hc]
            split at h
            · cases h
            · rename_i d r' hr
              rw [skipSpace_append hr]
              simp only
              split at h
              · rename_i hd
                rw [if_pos hd]; cases h; rfl
              · rename_i hd
                rw [if_neg hd]
                simp only [Option.bind_eq_bind, Option.bind_eq_some_iff] at h ⊢
                obtain ⟨⟨a, r1⟩, h1, h2⟩ := h
                cases h2
                exact ⟨_, ih2 m (by omega) _ _ _ h1, rfl⟩
          · rename_i hc
            rw [if_neg hc]
            split at h
            · rename_i hc
              rw [if_pos hc]
              split at h
              · cases h
              · rename_i d r' hr
                rw [skipSpace_append hr]
                simp only
                split at h
                · rename_i hd
                  rw [if_pos hd]; cases h; rfl
                · rename_i hd
                  rw [if_neg hd]
                  simp only [Option.bind_eq_bind, Option.bind_eq_some_iff] at h ⊢
                  obtain ⟨⟨a, r1⟩, h1, h2⟩ := h
                  cases h2
                  exact ⟨_, ih3 m (by omega) _ _ _ h1, rfl⟩
            · rename_i hc
              rw [if_neg hc]
              split at h
              · rename_i hc
                rw [if_pos hc]; exact readWord_append h
              · rename_i hc
                rw [if_neg hc]
                split at h
                · rename_i hc
                  rw [if_pos hc]; exact readWord_append h
                · rename_i hc
                  rw [if_neg hc]
                  split at h
                  · rename_i hc
                    rw [if_pos hc]; exact readWord_append h
                  · rename_i hc
                    rw [if_neg hc]
                    simp only [Option.bind_eq_bind, Option.bind_eq_some_iff] at h ⊢
                    obtain ⟨⟨a, r1⟩, h1, h2⟩ := h
                    cases h2
                    exact ⟨_, readNumber_append h1 hx, rfl⟩
    · intro m hm s v r h
      obtain ⟨m, rfl⟩ : ∃ k, m = k + 1 := ⟨m - 1, by omega⟩
      rw [readElems] at h ⊢
      simp only [Option.bind_eq_bind, Option.bind_eq_some_iff] at h ⊢
      obtain ⟨⟨a, r1⟩, h1, h2⟩ := h
      simp only at h2
      split at h2
      · cases h2
      · rename_i c t hs
        have hne : r1 ≠ [] := by rintro rfl; cases hs
        refine ⟨(a, r1 ++ x), ih1 m (by omega) _ _ _ h1 (fun e => absurd e hne), ?_⟩
        simp only
        rw [skipSpace_append hs]
        simp only
        split at h2
        · rename_i hc
          rw [if_pos hc]
          simp only [Option.bind_eq_some_iff] at h2 ⊢
          obtain ⟨⟨b, r2⟩, h3, h4⟩ := h2
          cases h4
          exact ⟨_, ih2 m (by omega) _ _ _ h3, rfl⟩
        · rename_i hc
          rw [if_neg hc]
          split at h2
          · rename_i hc
            rw [if_pos hc]; cases h2; rfl
          · cases h2
    · intro m hm s v r h
      obtain ⟨m, rfl⟩ : ∃ k, m = k + 1 := ⟨m - 1, by omega⟩
      rw [readMembers] at h ⊢
      split at h
      · cases h
      · rename_i q t hs
        rw [skipSpace_append hs]
        simp only
        split at h
        · rename_i hq
          rw [if_pos hq]
          simp only [Option.bind_eq_bind, Option.bind_eq_some_iff] at h ⊢
          obtain ⟨⟨k, r1⟩, h1, h2⟩ := h
          refine ⟨(k, r1 ++ x), readString_append h1, ?_⟩
          simp only at h2 ⊢
          split at h2
          · cases h2
          · rename_i c t1 hs1
            rw [skipSpace_append hs1]
            simp only
            split at h2
            · rename_i hc
              rw [if_pos hc]
              simp only [Option.bind_eq_some_iff] at h2 ⊢
              obtain ⟨⟨a, r2⟩, h3, h4⟩ := h2
              simp only at h4
              split at h4
              · cases h4
              · rename_i c2 t2 hs2
                have hne : r2 ≠ [] := by rintro rfl; cases hs2
                refine ⟨(a, r2 ++ x), ih1 m (by omega) _ _ _ h3 (fun e => absurd e hne), ?_⟩
                simp only
                rw [skipSpace_append hs2]
                simp only
                split at h4
                · rename_i hc
                  rw [if_pos hc]
                  simp only [Option.bind_eq_some_iff] at h4 ⊢
                  obtain ⟨⟨b, r3⟩, h5, h6⟩ := h4
                  cases h6
                  exact ⟨_, ih3 m (by omega) _ _ _ h5, rfl⟩
                · rename_i hc
                  rw [if_neg hc]
                  split at h4
                  · rename_i hc
                    rw [if_pos hc]; cases h4; rfl
                  · cases h4
            · cases h2
        · cases h

end Verif

import Verif.Model.Serialize
import Verif.Spec.PyLiteral
import Mathlib.Data.List.Basic
import Mathlib.Tactic.Ring

/-!
# C99: which values survive the serializers of the Python package

`ScalerSerializer` puts a string between quotes without escaping anything and reads it back with
`literal_eval`.  Exactly the strings without quotes, line breaks, NUL and effective escape sequences
come back; others are refused or, worse, come back changed.  `NumpySerializer` gives back every array.
-/

namespace Verif

/-! ## What is kept -/

/-- The characters which mean something after a backslash. -/
def escapeChars : List Char :=
  ['\n', '\\', '\'', '"', 'a', 'b', 'f', 'n', 'r', 't', 'v', 'x', 'u', 'U', 'N',
   '0', '1', '2', '3', '4', '5', '6', '7']

/-- Strings without single quotes and line feeds in which every backslash is followed by a character
which it does not change. -/
inductive Kept : List Char → Prop
  | nil : Kept []
  | char {c : Char} {l : List Char} : c ≠ '\'' → c ≠ '\\' → c ≠ '\n' → Kept l → Kept (c :: l)
  | esc {c : Char} {l : List Char} : c ∉ escapeChars → Kept l → Kept ('\\' :: c :: l)

/-! ## Reading string literals -/

theorem hexes_length : ∀ (n acc : Nat) (l : List Char) (v : Nat) (r : List Char),
    hexes n acc l = some (v, r) → r.length + n = l.length := by
  intro n
  induction n with
  | zero => intro acc l v r h; simp [hexes] at h; rw [h.2]; rfl
  | succ n ih =>
    intro acc l v r h
    cases l with
    | nil => simp [hexes] at h
    | cons c l =>
      simp only [hexes, Option.bind_eq_bind, Option.bind_eq_some_iff] at h
      obtain ⟨d, _, h⟩ := h
      have := ih _ _ _ _ h
      simp only [List.length_cons]; omega

theorem octals_length : ∀ (n acc : Nat) (l : List Char), (octals n acc l).2.length ≤ l.length := by
  intro n
  induction n with
  | zero => intro acc l; simp [octals]
  | succ n ih =>
    intro acc l
    cases l with
    | nil => simp [octals]
    | cons c l =>
      rw [octals]
      split
      · exact le_trans (ih _ _) (by simp)
      · simp

theorem toBrace_length : ∀ (l n r : List Char), toBrace l = some (n, r) → r.length < l.length := by
  intro l
  induction l with
  | nil => intro n r h; simp [toBrace] at h
  | cons c l ih =>
    intro n r h
    by_cases hc : c = '}'
    · subst hc; simp [toBrace] at h; simp [h.2]
    · have : toBrace (c :: l) = (toBrace l).map fun p => (c :: p.1, p.2) := by
        rw [toBrace]; intro h; exact hc h
      rw [this, Option.map_eq_some_iff] at h
      obtain ⟨⟨n', r'⟩, h1, h2⟩ := h
      simp only [Prod.mk.injEq] at h2
      have := ih _ _ h1
      rw [← h2.2]; simp only [List.length_cons]; omega

/-- An escape sequence is longer than what it stands for, or stands for itself. -/
theorem escape_length {named : List Char → Option Char} {c : Char} {l v r : List Char}
    (h : escape named c l = some (v, r)) :
    (c ∉ escapeChars ∧ v = ['\\', c] ∧ r = l) ∨ v.length + r.length + 1 ≤ l.length + 2 := by
  unfold escape at h
  split at h
  case h_12 | h_13 | h_14 =>
    rw [Option.map_eq_some_iff] at h
    obtain ⟨⟨a, b⟩, h1, h2⟩ := h
    simp only [Prod.mk.injEq] at h2
    have := hexes_length _ _ _ _ _ h1
    rw [← h2.1, ← h2.2]
    right; simp only [List.length_cons, List.length_nil]; omega
  case h_15 =>
    split at h
    · simp only [Option.bind_eq_bind, Option.bind_eq_some_iff, Option.some.injEq, Prod.mk.injEq] at h
      obtain ⟨⟨a, b⟩, h1, ch, _, h2, h3⟩ := h
      have := toBrace_length _ _ _ h1
      rw [← h2, ← h3]
      right; simp only [List.length_cons, List.length_nil] at this ⊢; omega
    · simp at h
  case h_16 =>
    split at h
    · simp only [Option.some.injEq, Prod.mk.injEq] at h
      have := octals_length 2 (c.toNat - '0'.toNat) l
      rw [← h.1, ← h.2]
      right; simp only [List.length_cons, List.length_nil]; omega
    · rename_i hoct
      simp only [Option.some.injEq, Prod.mk.injEq] at h
      left
      refine ⟨?_, h.1.symm, h.2.symm⟩
      intro hmem
      simp only [escapeChars, List.mem_cons, List.not_mem_nil, or_false] at hmem
      rcases hmem with rfl | rfl | rfl | rfl | rfl | rfl | rfl | rfl | rfl | rfl | rfl | rfl | rfl |
        rfl | rfl | rfl | rfl | rfl | rfl | rfl | rfl | rfl | rfl <;>
      contradiction
  all_goals
    simp only [Option.some.injEq, Prod.mk.injEq] at h
    rw [← h.1, ← h.2]
    right; simp only [List.length_cons, List.length_nil]; omega

theorem escape_self {named : List Char → Option Char} {c : Char} (l : List Char)
    (hc : c ∉ escapeChars) : escape named c l = some (['\\', c], l) := by
  simp only [escapeChars, List.mem_cons, List.not_mem_nil, or_false, not_or] at hc
  unfold escape
  split
  case h_16 =>
    rw [if_neg]
    rintro ⟨h1, h2⟩
    have h3 : c.toNat = 48 ∨ c.toNat = 49 ∨ c.toNat = 50 ∨ c.toNat = 51 ∨ c.toNat = 52 ∨ c.toNat = 53 ∨
        c.toNat = 54 ∨ c.toNat = 55 := by
      have a1 : 48 ≤ c.toNat := h1
      have a2 : c.toNat ≤ 55 := h2
      omega
    have h4 : ∀ d : Char, c.toNat = d.toNat → c = d := fun d h => Char.toNat_inj.1 h
    rcases h3 with h | h | h | h | h | h | h | h
    · exact hc.2.2.2.2.2.2.2.2.2.2.2.2.2.2.2.1 (h4 '0' h)
    · exact hc.2.2.2.2.2.2.2.2.2.2.2.2.2.2.2.2.1 (h4 '1' h)
    · exact hc.2.2.2.2.2.2.2.2.2.2.2.2.2.2.2.2.2.1 (h4 '2' h)
    · exact hc.2.2.2.2.2.2.2.2.2.2.2.2.2.2.2.2.2.2.1 (h4 '3' h)
    · exact hc.2.2.2.2.2.2.2.2.2.2.2.2.2.2.2.2.2.2.2.1 (h4 '4' h)
    · exact hc.2.2.2.2.2.2.2.2.2.2.2.2.2.2.2.2.2.2.2.2.1 (h4 '5' h)
    · exact hc.2.2.2.2.2.2.2.2.2.2.2.2.2.2.2.2.2.2.2.2.2.1 (h4 '6' h)
    · exact hc.2.2.2.2.2.2.2.2.2.2.2.2.2.2.2.2.2.2.2.2.2.2 (h4 '7' h)
  all_goals simp_all

/-- A literal is longer than the string by at least its delimiters. -/
theorem readStr_length {named : List Char → Option Char} {raw : Bool} {delim : List Char} :
    ∀ (fuel : Nat) (l v r : List Char), readStr named raw delim fuel l = some (v, r) →
      v.length + delim.length + r.length ≤ l.length ∧
      (raw = false → delim = ['\''] → v.length + 1 + r.length = l.length →
        l = v ++ '\'' :: r ∧ Kept v) := by
  intro fuel
  induction fuel with
  | zero => intro l v r h; simp [readStr] at h
  | succ fuel ih =>
    intro l v r h
    unfold readStr at h
    by_cases hp : delim.isPrefixOf l = true
    · rw [if_pos hp] at h
      simp only [Option.some.injEq, Prod.mk.injEq] at h
      obtain ⟨rest, hrest⟩ := List.isPrefixOf_iff_prefix.1 hp
      rw [← h.1, ← h.2, ← hrest]
      refine ⟨by simp, ?_⟩
      intro _ hd _
      subst hd
      exact ⟨by simp, .nil⟩
    · rw [if_neg hp] at h
      split at h
      · simp at h
      · simp at h
      · rename_i c l'
        split at h
        · rename_i hraw
          rw [Option.map_eq_some_iff] at h
          obtain ⟨⟨a, b⟩, h1, h2⟩ := h
          simp only [Prod.mk.injEq] at h2
          have := (ih _ _ _ h1).1
          rw [← h2.1, ← h2.2]
          refine ⟨by simp only [List.length_cons]; omega, ?_⟩
          intro hf; rw [hf] at hraw; cases hraw
        · simp only [Option.bind_eq_bind, Option.bind_eq_some_iff, Option.some.injEq,
            Prod.mk.injEq] at h
          obtain ⟨⟨e, l1⟩, h1, ⟨w, l2⟩, h2, h3, h4⟩ := h
          simp only at h2 h3 h4
          obtain ⟨i1, i2⟩ := ih _ _ _ h2
          rw [← h3, ← h4]
          rcases escape_length h1 with ⟨e1, e2, e3⟩ | e1
          · subst e2 e3
            refine ⟨by simp only [List.length_append, List.length_cons, List.length_nil]; omega, ?_⟩
            intro hr hd heq
            obtain ⟨j1, j2⟩ := i2 hr hd (by
              simp only [List.length_append, List.length_cons, List.length_nil] at heq; omega)
            exact ⟨by rw [j1]; simp, .esc e1 j2⟩
          · refine ⟨by simp only [List.length_append, List.length_cons]; omega, ?_⟩
            intro hr hd heq
            exfalso
            rw [hd] at i1
            simp only [List.length_append, List.length_cons, List.length_nil] at heq i1
            omega
      · rename_i c l' hne1 hne2
        split at h
        · simp at h
        · rename_i hnl
          rw [Option.map_eq_some_iff] at h
          obtain ⟨⟨a, b⟩, h1, h2⟩ := h
          simp only [Prod.mk.injEq] at h2
          obtain ⟨i1, i2⟩ := ih _ _ _ h1
          rw [← h2.1, ← h2.2]
          refine ⟨by simp only [List.length_cons]; omega, ?_⟩
          intro hr hd heq
          obtain ⟨j1, j2⟩ := i2 hr hd (by simp only [List.length_cons] at heq; omega)
          refine ⟨by rw [j1]; simp, .char ?_ ?_ ?_ j2⟩
          · rintro rfl
            subst hd
            simp [List.isPrefixOf] at hp
          · rintro rfl
            cases l' with
            | nil => exact hne1 rfl
            | cons d l' => exact hne2 _ _ rfl rfl
          · rintro rfl
            exact hnl ⟨rfl, by rw [hd]; rfl⟩

/-- A kept string is read back. -/
theorem readStr_kept {named : List Char → Option Char} {v r : List Char} (h : Kept v) :
    ∀ fuel, v.length < fuel → readStr named false ['\''] fuel (v ++ '\'' :: r) = some (v, r) := by
  induction h with
  | nil =>
    intro fuel hf
    cases fuel with
    | zero => simp at hf
    | succ fuel => simp [readStr, List.isPrefixOf]
  | @char c l h1 h2 h3 hl ih =>
    intro fuel hf
    cases fuel with
    | zero => simp at hf
    | succ fuel =>
      unfold readStr
      rw [if_neg (by simp [List.isPrefixOf, h1.symm])]
      have := ih fuel (by simp only [List.length_cons] at hf; omega)
      simp only [List.cons_append]
      split
      · rename_i heq; simp at heq
      · rename_i heq; simp at heq
      · rename_i heq; simp only [List.cons.injEq] at heq; exact absurd heq.1 h2
      · rename_i heq; simp only [List.cons.injEq] at heq
        obtain ⟨rfl, rfl⟩ := heq
        rw [if_neg (by simp [h3]), this]; rfl
  | @esc c l hc hl ih =>
    intro fuel hf
    cases fuel with
    | zero => simp at hf
    | succ fuel =>
      unfold readStr
      rw [if_neg (by simp [List.isPrefixOf])]
      have := ih fuel (by simp only [List.length_cons] at hf; omega)
      simp [escape_self _ hc, this]

/-- One token is longer than its string by two quotes at least. -/
theorem readToken_length {named : List Char → Option Char} {l v r : List Char}
    (h : readToken named l = some (v, r)) :
    v.length + 2 + r.length ≤ l.length ∧
    (l.head? = some '\'' → v.length + 2 + r.length = l.length →
      l = '\'' :: (v ++ '\'' :: r) ∧ Kept v) := by
  unfold readToken at h
  split at h
  · obtain ⟨h1, _⟩ := readStr_length _ _ _ _ h
    simp only [List.length_cons, List.length_nil] at h1 ⊢
    exact ⟨by omega, fun _ h => by omega⟩
  · obtain ⟨h1, h2⟩ := readStr_length _ _ _ _ h
    simp only [List.length_cons, List.length_nil] at h1 ⊢
    refine ⟨by omega, fun _ h => ?_⟩
    obtain ⟨h3, h4⟩ := h2 rfl rfl (by omega)
    exact ⟨by rw [h3], h4⟩
  · obtain ⟨h1, _⟩ := readStr_length _ _ _ _ h
    simp only [List.length_cons, List.length_nil] at h1 ⊢
    exact ⟨by omega, fun _ h => by omega⟩
  · obtain ⟨h1, _⟩ := readStr_length _ _ _ _ h
    simp only [List.length_cons, List.length_nil] at h1 ⊢
    exact ⟨by omega, fun h => by simp at h⟩
  all_goals
    first
    | (split at h
       · obtain ⟨h1, _⟩ := readStr_length _ _ _ _ h
         simp only [List.length_cons, List.length_nil] at h1 ⊢
         exact ⟨by omega, fun _ h => by omega⟩
       · simp at h)
    | simp at h

theorem skipBlanks_length : ∀ l : List Char, (skipBlanks l).length ≤ l.length := by
  intro l
  induction l using skipBlanks.induct with
  | case1 l ih => rw [skipBlanks]; simp only [List.length_cons]; omega
  | case2 c l hne h ih => rw [skipBlanks, if_pos h]; simp only [List.length_cons]; omega; exact hne
  | case3 c l hne h => rw [skipBlanks, if_neg h]; exact hne
  | case4 => simp [skipBlanks]

theorem readTokens_length {named : List Char → Option Char} :
    ∀ (fuel : Nat) (l v : List Char), readTokens named fuel l = some v →
      v.length + 2 ≤ l.length ∧ (l.head? = some '\'' → v.length + 2 = l.length →
        l = '\'' :: (v ++ ['\'']) ∧ Kept v) := by
  intro fuel
  induction fuel with
  | zero => intro l v h; simp [readTokens] at h
  | succ fuel ih =>
    intro l v h
    simp only [readTokens, Option.bind_eq_bind, Option.bind_eq_some_iff] at h
    obtain ⟨⟨v1, r⟩, h1, h2⟩ := h
    obtain ⟨t1, t2⟩ := readToken_length h1
    simp only at h2
    split at h2
    · simp only [Option.some.injEq] at h2
      subst h2
      refine ⟨by omega, fun hh heq => ?_⟩
      have hr : r = [] := List.length_eq_zero_iff.1 (by omega)
      subst hr
      exact t2 hh (by simp only [List.length_nil]; omega)
    · simp only [Option.bind_eq_some_iff, Option.some.injEq] at h2
      obtain ⟨w, h3, h4⟩ := h2
      have h5 := (ih _ _ h3).1
      have h6 := skipBlanks_length r
      rw [← h4, List.length_append]
      exact ⟨by omega, fun _ h => by omega⟩

/-! ## Line breaks -/

theorem newlines_length (l : List Char) : (newlines l).length ≤ l.length := by
  induction l using newlines.induct with
  | case1 => simp [newlines]
  | case2 l ih => rw [newlines]; simp only [List.length_cons]; omega
  | case3 l hne ih => rw [newlines]; simp only [List.length_cons]; omega; exact hne
  | case4 c l h1 h2 ih => rw [newlines]; simp only [List.length_cons]; omega; exact h1; exact h2

theorem newlines_self {l : List Char} (h : '\r' ∉ l) : newlines l = l := by
  induction l using newlines.induct with
  | case1 => rfl
  | case2 l ih => simp at h
  | case3 l hne ih => simp at h
  | case4 c l h1 h2 ih =>
    rw [newlines, ih (fun hm => h (List.mem_cons_of_mem _ hm))]
    exact h1
    exact h2

theorem newlines_mem {l : List Char} (h : '\r' ∈ l) : '\n' ∈ newlines l := by
  induction l using newlines.induct with
  | case1 => simp at h
  | case2 l ih => rw [newlines]; simp
  | case3 l hne ih => rw [newlines]; simp; exact hne
  | case4 c l h1 h2 ih =>
    rw [newlines]
    · refine List.mem_cons_of_mem _ (ih ?_)
      rcases List.mem_cons.1 h with rfl | h
      · exact absurd rfl (h2 )
      · exact h
    · exact h1
    · exact h2

theorem newlines_append {a b : List Char} (hb : b.head? ≠ some '\n') :
    newlines (a ++ b) = newlines a ++ newlines b := by
  induction a using newlines.induct with
  | case1 => rfl
  | case2 l ih => simp only [List.cons_append, newlines, ih]
  | case3 l hne ih =>
    rw [List.cons_append, newlines, newlines, ih, List.cons_append]
    · exact hne
    · intro r hr
      cases l with
      | nil => rw [List.nil_append] at hr; rw [hr] at hb; simp at hb
      | cons d l => rw [List.cons_append, List.cons.injEq] at hr; exact hne _ (by rw [hr.1])
  | case4 c l h1 h2 ih =>
    rw [List.cons_append, newlines, newlines, ih, List.cons_append]
    all_goals first | exact h1 | exact h2 | skip
    · intro r hr h; exact h2 hr

theorem Kept.no_break {l : List Char} (h : Kept l) : '\n' ∉ l ∧ '\'' ∉ l := by
  induction h with
  | nil => simp
  | char h1 h2 h3 _ ih =>
    simp only [List.mem_cons, not_or]
    exact ⟨⟨h3.symm, ih.1⟩, h1.symm, ih.2⟩
  | esc hc _ ih =>
    simp only [List.mem_cons, not_or]
    refine ⟨⟨by decide, ?_, ih.1⟩, by decide, ?_, ih.2⟩
    · rintro rfl; exact hc (by decide)
    · rintro rfl; exact hc (by decide)

/-- **C99** (strings): a string comes back from `ScalerSerializer` exactly when it is `Kept` and contains
neither a carriage return nor NUL. -/
theorem C99_string_iff (named : List Char → Option Char) (s : List Char) :
    literalStr named (PyScalar.str s).serialize = some s ↔
      Kept s ∧ '\r' ∉ s ∧ Char.ofNat 0 ∉ s := by
  have hsplit : newlines (PyScalar.str s).serialize = '\'' :: (newlines s ++ ['\'']) := by
    show newlines ('\'' :: (s ++ ['\''])) = _
    rw [newlines, newlines_append (by decide)]
    · rfl
    · intro l h; cases h
    · intro h; cases h
  constructor
  · intro h
    unfold literalStr at h
    split at h
    · cases h
    · rename_i h0
      have hnul : Char.ofNat 0 ∉ s := fun hm => h0 (by simp [PyScalar.serialize, hm])
      rw [hsplit] at h
      have hl := newlines_length s
      obtain ⟨h1, h2⟩ := readTokens_length _ _ _ h
      simp only [List.length_cons, List.length_append, List.length_nil] at h1
      obtain ⟨h3, h4⟩ := h2 rfl (by
        simp only [List.length_cons, List.length_append, List.length_nil]; omega)
      have h5 : newlines s = s := by simpa using h3
      refine ⟨h4, fun hr => ?_, hnul⟩
      have := newlines_mem hr
      rw [h5] at this
      exact h4.no_break.1 this
  · rintro ⟨hk, hr, h0⟩
    unfold literalStr
    rw [if_neg (by simp [PyScalar.serialize, h0]), hsplit, newlines_self hr]
    have hrd := readStr_kept (named := named) (r := []) hk ((s ++ ['\'']).length + 1)
      (by simp only [List.length_append, List.length_cons, List.length_nil]; omega)
    have htok : readToken named ('\'' :: (s ++ ['\''])) = some (s, []) := by
      rw [readToken]
      · exact hrd
      · intro l heq
        cases s with
        | nil => simp at heq
        | cons c s =>
          simp only [List.cons_append, List.cons.injEq] at heq
          exact absurd (by simp [heq.1]) hk.no_break.2
    simp [readTokens, htok, noToken]

/-- **C99** (quotes): no string which contains a single quote comes back. -/
theorem C99_quote (named : List Char → Option Char) {s : List Char} (h : '\'' ∈ s) :
    literalStr named (PyScalar.str s).serialize ≠ some s := by
  rw [Ne, C99_string_iff]
  exact fun hk => hk.1.no_break.2 h

/-- **C99** (plain strings): strings without quotes, backslashes, line breaks and NUL come back.
Missing: all other strings (see the witnesses below). -/
theorem C99_string_partial (named : List Char → Option Char) {s : List Char} (h1 : '\'' ∉ s)
    (h2 : '\\' ∉ s) (h3 : '\n' ∉ s) (h4 : '\r' ∉ s) (h5 : Char.ofNat 0 ∉ s) :
    literalStr named (PyScalar.str s).serialize = some s := by
  rw [C99_string_iff]
  refine ⟨?_, h4, h5⟩
  clear h4 h5
  induction s with
  | nil => exact .nil
  | cons c s ih =>
    simp only [List.mem_cons, not_or] at h1 h2 h3
    exact .char (Ne.symm h1.1) (Ne.symm h2.1) (Ne.symm h3.1) (ih h1.2 h2.2 h3.2)

/-- **C99** (witnesses): a name with an apostrophe is refused; a path in the style of Windows comes back
with a tab in it; a text with a comment sign is cut; a list of names loses its quotes. -/
theorem C99_changed :
    literalStr (fun _ => none) (PyScalar.str "it's".toList).serialize = none ∧
    literalStr (fun _ => none) (PyScalar.str "C:\\temp".toList).serialize =
      some "C:\temp".toList ∧
    literalStr (fun _ => none) (PyScalar.str "no' # 1".toList).serialize = some "no".toList ∧
    literalStr (fun _ => none) (PyScalar.str "a' 'b".toList).serialize = some "ab".toList ∧
    literalStr (fun _ => none) (PyScalar.str "''a''".toList).serialize = some "a".toList := by
  decide +kernel

/-! ## Integers -/

theorem toDigits_head (n : Nat) :
    (Nat.toDigits 10 n).head? = some '0' → (Nat.toDigits 10 n).length = 1 := by
  induction n using Nat.strongRecOn with
  | _ n ih =>
    rcases Nat.lt_or_ge n 10 with h | h
    · intro _; rw [Nat.toDigits_of_lt_base h]; rfl
    · rw [Nat.toDigits_of_base_le (by decide) h]
      intro hh
      exfalso
      have hne : Nat.toDigits 10 (n / 10) ≠ [] := Nat.toDigits_ne_nil
      rw [List.head?_append_of_ne_nil _ hne] at hh
      have hl := ih (n / 10) (by omega) hh
      have h1 : n / 10 < 10 := by
        have := (Nat.length_toDigits_le_iff (n := n / 10) (k := 1) (b := 10) (by decide) (by decide)).1
          (by omega)
        simpa using this
      rw [Nat.toDigits_of_lt_base h1] at hh
      simp only [List.head?_cons, Option.some.injEq] at hh
      have h2 : 0 < n / 10 := by omega
      generalize n / 10 = k at h1 h2 hh
      revert hh h2
      have : ∀ k < 10, 0 < k → k.digitChar ≠ '0' := by decide
      exact fun h h' => this k h1 h h'

theorem literalNat_text (n : Nat) : literalNat (toString n).toList = some n := by
  have e : (toString n).toList = Nat.toDigits 10 n := by
    rw [Nat.toString_eq_repr, Nat.toList_repr]
  rw [e, literalNat, if_pos]
  · have := Nat.ofDigitChars_toDigits (b := 10) (n := n) (by decide) (by decide)
    rw [Nat.ofDigitChars_eq_foldl] at this
    rw [← this]
    congr 1
    have hf : (fun (k : Nat) (c : Char) => k * 10 + (c.toNat - '0'.toNat)) =
        fun k c => 10 * k + (c.toNat - '0'.toNat) := by
      funext k c; rw [Nat.mul_comm]
    rw [this, hf]
    exact this
  · refine ⟨?_, Nat.toDigits_ne_nil, toDigits_head n⟩
    rw [List.all_eq_true]
    exact fun c hc => Nat.isDigit_of_mem_toDigits (by decide) (by decide) hc

/-- **C99** (integers): every integer comes back. -/
theorem C99_int (z : Int) : literalInt (PyScalar.int z).serialize = some z := by
  cases z with
  | ofNat n =>
    show literalInt (toString n).toList = _
    have hn := literalNat_text n
    have hd : (toString n).toList.head? ≠ some '-' := by
      rw [Nat.toString_eq_repr, Nat.toList_repr]
      intro h
      have := Nat.isDigit_of_mem_toDigits (b := 10) (by decide) (by decide) (List.mem_of_head? h)
      exact absurd this (by decide)
    rw [literalInt, hn]
    · rfl
    · intro l h; rw [h] at hd; exact hd rfl
  | negSucc n =>
    show literalInt ('-' :: (toString (n + 1)).toList) = _
    rw [literalInt, literalNat_text]
    rfl

/-! ## Arrays -/

section
variable {α β : Type}

theorem leavesList_map {γ : Type} (f : γ → Nested α) (l : List γ) :
    Nested.leavesList (l.map f) = l.flatMap fun x => (f x).leaves := by
  induction l with
  | nil => simp [Nested.leavesList]
  | cons x l ih => simp [Nested.leavesList, ih]

theorem flatMap_chunks (l : List α) (k : Nat) : ∀ d, d * k ≤ l.length →
    ((List.range d).flatMap fun i => (l.drop (i * k)).take k) = l.take (d * k) := by
  intro d
  induction d with
  | zero => intro _; simp
  | succ d ih =>
    intro h
    rw [List.range_succ, List.flatMap_append, ih (by rw [Nat.add_mul] at h; omega)]
    simp only [List.flatMap_cons, List.flatMap_nil, List.append_nil]
    rw [Nat.add_mul, Nat.one_mul, List.take_add]

/-- `tolist` keeps the elements. -/
theorem leaves_nestOf (dflt : α) : ∀ (shape : List Nat) (l : List α), shape.prod ≤ l.length →
    (nestOf dflt shape l).leaves = l.take shape.prod := by
  intro shape
  induction shape with
  | nil =>
    intro l h
    cases l with
    | nil => simp at h
    | cons a l => simp only [nestOf, Nested.leaves, List.headD_cons, List.prod_nil]; rfl
  | cons d shape ih =>
    intro l h
    rw [List.prod_cons] at h ⊢
    rw [nestOf, Nested.leaves, leavesList_map, ← flatMap_chunks l shape.prod d h]
    refine List.flatMap_congr fun i hi => ?_
    have hi' := List.mem_range.1 hi
    refine ih _ ?_
    rw [List.length_drop]
    have : (i + 1) * shape.prod ≤ d * shape.prod := Nat.mul_le_mul_right _ hi'
    rw [Nat.add_mul] at this
    omega

/-- The shape up to its first zero. -/
def cutShape : List Nat → List Nat
  | [] => []
  | 0 :: _ => [0]
  | (d + 1) :: s => (d + 1) :: cutShape s

theorem allShape_map {γ : Type} (f : γ → Nested α) (s : List Nat) (l : List γ)
    (h : ∀ x ∈ l, (f x).shapeOf = some s) : Nested.allShape s (l.map f) = true := by
  induction l with
  | nil => simp [Nested.allShape]
  | cons x l ih =>
    simp [Nested.allShape, h x (by simp), ih fun y hy => h y (by simp [hy])]

theorem shapeOf_nestOf (dflt : α) : ∀ (shape : List Nat) (l : List α),
    (nestOf dflt shape l).shapeOf = some (cutShape shape) := by
  intro shape
  induction shape with
  | nil => intro l; simp [nestOf, Nested.shapeOf, cutShape]
  | cons d shape ih =>
    intro l
    rw [nestOf]
    cases d with
    | zero => simp [Nested.shapeOf, cutShape]
    | succ d =>
      rw [List.range_succ_eq_map, List.map_cons, Nested.shapeOf]
      simp only [ih, Option.bind_eq_bind, Option.bind_some]
      rw [if_pos (allShape_map _ _ _ fun x _ => ih _)]
      simp [cutShape]

/-- **C99** (arrays): every array, of any number of dimensions and also with dimensions of size zero,
comes back from `NumpySerializer` if its elements do. -/
theorem C99_array (dflt : β) (item : α → β) (cast : β → α) (hc : ∀ x, cast (item x) = x)
    (a : NdArray α) (ha : a.data.length = a.shape.prod) :
    (a.serialize dflt item).deserialize cast = some a := by
  have h1 : (nestOf dflt a.shape (a.data.map item)).leaves.map cast = a.data := by
    rw [leaves_nestOf _ _ _ (by rw [List.length_map, ha]),
      List.take_of_length_le (by rw [List.length_map, ha]), List.map_map]
    conv => rhs; rw [← List.map_id a.data]
    exact List.map_congr_left fun x _ => hc x
  unfold NumpyData.deserialize NdArray.serialize npArray
  simp only [shapeOf_nestOf, h1, Option.bind_eq_bind, Option.bind_some]
  split
  · rename_i hl
    obtain ⟨n, hn⟩ := List.length_eq_one_iff.1 hl
    have : cutShape a.shape = a.shape := by rw [hn]; cases n <;> rfl
    rw [this]
  · rw [NdArray.reshape, if_pos ha]

end

/-- Three dimensions, one of them empty, and a scalar. -/
example :
    ((⟨[2, 1, 2], [1, 2, 3, 4]⟩ : NdArray Nat).serialize 0 id).deserialize id =
      some ⟨[2, 1, 2], [1, 2, 3, 4]⟩ ∧
    ((⟨[2, 0, 3], []⟩ : NdArray Nat).serialize 0 id).deserialize id = some ⟨[2, 0, 3], []⟩ ∧
    ((⟨[], [7]⟩ : NdArray Nat).serialize 0 id).deserialize id = some ⟨[], [7]⟩ := by
  decide +kernel

/-- The reading of literals: escapes, continuation, prefixes, refusals. -/
example :
    literalStr (fun _ => some '!') "'a\\x41\\101\\N{EXCLAMATION MARK}\\q' r'\\n'".toList =
      some "aAA!\\q\\n".toList ∧
    literalStr (fun _ => none) "'a', 'b'".toList = none ∧
    literalStr (fun _ => none) "'a'\"b\" # c".toList = some "ab".toList ∧
    literalInt "-12".toList = some (-12) ∧ literalInt "nan".toList = none ∧
    Kept "100% \\ ok".toList := by
  refine ⟨by decide +kernel, by decide +kernel, by decide +kernel, by decide +kernel,
    by decide +kernel, ?_⟩
  have : literalStr (fun _ => none) (PyScalar.str "100% \\ ok".toList).serialize =
      some "100% \\ ok".toList := by decide +kernel
  exact ((C99_string_iff _ _).1 this).1

end Verif

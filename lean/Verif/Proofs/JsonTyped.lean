import Verif.Proofs.JsonRender
import Verif.Proofs.Json
import Std.Data.String.ToNat

/-!
# The numbers in the text of a saved model
-/

namespace Verif

open scoped Verif

/-- Floats are written as JSON numbers that read as the same float. -/
structure NumText.Exact {F D : Type} [Fl F] [Fl D] (N : NumText F D) : Prop where
  token32 : ∀ x, isFinite x = true → readNumber (N.print32 x) = some (N.print32 x, [])
  read32 : ∀ x, isFinite x = true → N.read32 (N.print32 x) = some x
  token64 : ∀ x, isFinite x = true → readNumber (N.print64 x) = some (N.print64 x, [])
  read64 : ∀ x, isFinite x = true → N.read64 (N.print64 x) = some x

/-! ### Integers -/

theorem jsonDigit_of_isDigit {c : Char} (h : c.isDigit = true) : jsonDigit c = true := by
  unfold Char.isDigit at h
  unfold jsonDigit
  simp only [Bool.and_eq_true, decide_eq_true_eq] at h ⊢
  exact ⟨h.1, h.2⟩

theorem toDigits_first {n : Nat} (hn : n ≠ 0) : ∀ c l, Nat.toDigits 10 n = c :: l → c ≠ '0' := by
  induction n using Nat.strongRecOn with
  | ind n ih =>
    intro c l h
    by_cases h10 : n < 10
    · rw [Nat.toDigits_of_lt_base h10] at h
      cases h
      revert hn
      have : ∀ m < 10, m ≠ 0 → Nat.digitChar m ≠ '0' := by decide
      exact this n h10
    · rw [Nat.toDigits_of_base_le (by decide) (by omega)] at h
      cases h' : Nat.toDigits 10 (n / 10) with
      | nil => exact absurd h' Nat.toDigits_ne_nil
      | cons d t =>
        rw [h'] at h
        cases h
        exact ih (n / 10) (by omega) (by omega) _ _ h'

theorem readNumber_digits {c : Char} {l : List Char} (h : ∀ d ∈ c :: l, jsonDigit d = true)
    (h0 : c = '0' → l = []) : readNumber (c :: l) = some (c :: l, []) := by
  have hc := h c List.mem_cons_self
  have hm : c ≠ '-' := by rintro rfl; revert hc; decide
  have e1 : readMinus (c :: l) = ([], c :: l) := by
    unfold readMinus; dsimp only; rw [if_neg hm]
  have ht : (c :: l).takeWhile jsonDigit = c :: l := takeWhile_of_all h
  have hd : (c :: l).dropWhile jsonDigit = [] := dropWhile_of_all h
  have e2 : readInt (c :: l) = some (c :: l, []) := by
    unfold readInt
    dsimp only
    split
    · rename_i h1
      rw [h0 h1, h1]
    · unfold readDigits
      rw [ht, hd]
      rfl
  unfold readNumber
  rw [e1]
  have e3 : readFraction [] = some ([], []) := rfl
  have e4 : readExponent [] = some ([], []) := rfl
  simp only [Option.bind_eq_bind, e2, e3, e4, Option.bind_some, List.append_nil, List.nil_append]

theorem readNumber_repr (n : Nat) : readNumber (Nat.repr n).toList = some ((Nat.repr n).toList, []) := by
  rw [Nat.toList_repr]
  cases h : Nat.toDigits 10 n with
  | nil => exact absurd h Nat.toDigits_ne_nil
  | cons c l =>
    refine readNumber_digits (fun d hd => ?_) (fun h0 => ?_)
    · exact jsonDigit_of_isDigit (Nat.isDigit_of_mem_toDigits (by decide) (by decide) (h ▸ hd))
    · by_cases hn : n = 0
      · subst hn
        rw [Nat.toDigits_of_lt_base (by decide)] at h
        cases h; rfl
      · exact absurd h0 (toDigits_first hn c l h)

/-! ### Documents with typed numbers -/

section
variable {F D : Type} [Fl F] [Fl D]

mutual
/-- The numbers of a document have the types that are asked for. -/
def Json.HasTy (t : Ty) : Json F D → Prop
  | .nat _ => t = .nat
  | .f32 x => t = .f32 ∧ isFinite x = true
  | .f64 x => t = .f64 ∧ isFinite x = true
  | .arr l => Json.HasTyL t.elem l
  | .obj l => Json.HasTyM t l
  | .null => True
  | .bool _ => True
  | .str _ => True
/-- The elements. -/
def Json.HasTyL (t : Ty) : List (Json F D) → Prop
  | [] => True
  | j :: l => j.HasTy t ∧ Json.HasTyL t l
/-- The members. -/
def Json.HasTyM (t : Ty) : List (String × Json F D) → Prop
  | [] => True
  | (k, j) :: l => j.HasTy (t.member k) ∧ Json.HasTyM t l
end

variable {N : NumText F D}

mutual
theorem Json.toText_ok (hN : N.Exact) (t : Ty) : (j : Json F D) → j.HasTy t →
    (j.toText N).Numbers ∧ (j.toText N).typed N t = some j
  | .null, _ => by rw [Json.toText, JText.typed, JText.Numbers]; exact ⟨trivial, rfl⟩
  | .bool b, _ => by rw [Json.toText, JText.typed, JText.Numbers]; exact ⟨trivial, rfl⟩
  | .str s, _ => by
    rw [Json.toText, JText.typed, JText.Numbers, String.ofList_toList]; exact ⟨trivial, rfl⟩
  | .nat n, h => by
    rw [Json.HasTy] at h
    subst h
    rw [Json.toText, JText.typed, JText.Numbers]
    refine ⟨readNumber_repr n, ?_⟩
    rw [readNumberAs, String.ofList_toList, Nat.toNat?_repr]
    rfl
  | .f32 x, h => by
    rw [Json.HasTy] at h
    obtain ⟨rfl, h⟩ := h
    rw [Json.toText, JText.typed, JText.Numbers]
    refine ⟨hN.token32 x h, ?_⟩
    rw [readNumberAs, hN.read32 x h]
    rfl
  | .f64 x, h => by
    rw [Json.HasTy] at h
    obtain ⟨rfl, h⟩ := h
    rw [Json.toText, JText.typed, JText.Numbers]
    refine ⟨hN.token64 x h, ?_⟩
    rw [readNumberAs, hN.read64 x h]
    rfl
  | .arr l, h => by
    rw [Json.HasTy] at h
    obtain ⟨h1, h2⟩ := Json.toTexts_ok hN t.elem l h
    rw [Json.toText, JText.typed, JText.Numbers, h2]
    exact ⟨h1, rfl⟩
  | .obj l, h => by
    rw [Json.HasTy] at h
    obtain ⟨h1, h2⟩ := Json.toMembers_ok hN t l h
    rw [Json.toText, JText.typed, JText.Numbers, h2]
    exact ⟨h1, rfl⟩
theorem Json.toTexts_ok (hN : N.Exact) (t : Ty) : (l : List (Json F D)) → Json.HasTyL t l →
    JText.NumbersL (Json.toTexts N l) ∧ JText.typedElems N t (Json.toTexts N l) = some l
  | [], _ => by rw [Json.toTexts, JText.typedElems, JText.NumbersL]; exact ⟨trivial, rfl⟩
  | j :: l, h => by
    rw [Json.HasTyL] at h
    obtain ⟨h1, h2⟩ := Json.toText_ok hN t j h.1
    obtain ⟨h3, h4⟩ := Json.toTexts_ok hN t l h.2
    rw [Json.toTexts, JText.typedElems, JText.NumbersL, h2, h4]
    exact ⟨⟨h1, h3⟩, rfl⟩
theorem Json.toMembers_ok (hN : N.Exact) (t : Ty) : (l : List (String × Json F D)) → Json.HasTyM t l →
    JText.NumbersM (Json.toMembers N l) ∧ JText.typedMembers N t (Json.toMembers N l) = some l
  | [], _ => by rw [Json.toMembers, JText.typedMembers, JText.NumbersM]; exact ⟨trivial, rfl⟩
  | (k, j) :: l, h => by
    rw [Json.HasTyM] at h
    obtain ⟨h1, h2⟩ := Json.toText_ok hN (t.member k) j h.1
    obtain ⟨h3, h4⟩ := Json.toMembers_ok hN t l h.2
    rw [Json.toMembers, JText.typedMembers, JText.NumbersM, String.ofList_toList, h2, h4]
    exact ⟨⟨h1, h3⟩, rfl⟩
end

/-! ### The document of a booster -/

theorem hasTy_ofF32 (x : F) : (Json.ofF32 x : Json F D).HasTy .f32 := by
  unfold Json.ofF32
  split
  · rename_i h; rw [Json.HasTy]; exact ⟨rfl, h⟩
  · rw [Json.HasTy]; trivial

theorem hasTy_ofF64 (x : D) : (Json.ofF64 x : Json F D).HasTy .f64 := by
  unfold Json.ofF64
  split
  · rename_i h; rw [Json.HasTy]; exact ⟨rfl, h⟩
  · rw [Json.HasTy]; trivial

theorem hasTy_nat (n : Nat) : (.nat n : Json F D).HasTy .nat := by rw [Json.HasTy]

theorem hasTy_bool (b : Bool) (t : Ty) : (.bool b : Json F D).HasTy t := by rw [Json.HasTy]; trivial

theorem hasTy_str (s : String) (t : Ty) : (.str s : Json F D).HasTy t := by rw [Json.HasTy]; trivial

theorem hasTy_option {α : Type} {f : α → Json F D} {t : Ty} (h : ∀ a, (f a).HasTy t) (o : Option α) :
    (Json.ofOption f o).HasTy t := by
  cases o with
  | none => rw [Json.ofOption, Json.HasTy]; trivial
  | some a => exact h a

theorem hasTyL_map {α : Type} {f : α → Json F D} {t : Ty} (h : ∀ a, (f a).HasTy t) (l : List α) :
    Json.HasTyL t (l.map f) := by
  induction l with
  | nil => rw [List.map_nil, Json.HasTyL]; trivial
  | cons a l ih => rw [List.map_cons, Json.HasTyL]; exact ⟨h a, ih⟩

theorem hasTy_arr {α : Type} {f : α → Json F D} {t : Ty} (h : ∀ a, (f a).HasTy t) (l : List α) :
    (.arr (l.map f) : Json F D).HasTy (.arr t) := by
  rw [Json.HasTy]; exact hasTyL_map h l

theorem hasTy_strings {α : Type} (k v : α → String) (t : Ty) (l : List α) :
    (.obj (l.map fun p => (k p, .str (v p))) : Json F D).HasTy t := by
  rw [Json.HasTy]
  induction l with
  | nil => rw [List.map_nil, Json.HasTyM]; trivial
  | cons a l ih => rw [List.map_cons, Json.HasTyM]; exact ⟨hasTy_str _ _, ih⟩

theorem hasTy_node (n : Node F D) : (encNode n).HasTy nodeTy := by
  rw [encNode]
  simp only [Json.HasTy, Json.HasTyM]
  exact ⟨rfl, hasTy_ofF32 _, hasTy_ofF32 _, rfl, hasTy_ofF64 _, rfl, hasTy_ofF32 _, rfl, rfl, rfl, trivial,
    trivial⟩

theorem hasTy_tree (t : Tree F D) : (encTree t).HasTy treeTy := by
  rw [encTree, Json.HasTy, Json.HasTyM]
  exact ⟨hasTy_arr hasTy_node _, by rw [Json.HasTyM]; trivial⟩

theorem hasTy_matrix (m : RowMajorMatrix D) : (encMatrix m : Json F D).HasTy historyTy := by
  rw [encMatrix, Json.HasTy]
  simp only [Json.HasTyM]
  exact ⟨hasTy_arr hasTy_ofF64 _, hasTy_nat _, hasTy_nat _, hasTy_nat _, hasTy_nat _, trivial⟩

theorem hasTy_booster (b : Booster F D) : b.jsonDump.HasTy boosterTy := by
  rw [Booster.jsonDump, Json.HasTy, boosterMembers]
  simp only [Json.HasTyM]
  exact ⟨hasTy_str _ _, hasTy_nat _, hasTy_ofF32 _, hasTy_nat _, hasTy_nat _, hasTy_ofF32 _, hasTy_ofF32 _,
    hasTy_ofF32 _, hasTy_ofF32 _, hasTy_ofF32 _, hasTy_ofF64 _, hasTy_nat _, hasTy_bool _ _, hasTy_bool _ _,
    hasTy_option (fun m => hasTy_strings _ _ _ m) _, hasTy_ofF32 _, hasTy_ofF64 _, hasTy_ofF64 _,
    hasTy_ofF64 _, hasTy_nat _, hasTy_ofF64 _, hasTy_bool _ _, hasTy_str _ _, hasTy_str _ _,
    hasTy_option (fun m => hasTy_str _ _) _, hasTy_option hasTy_nat _, hasTy_bool _ _,
    hasTy_arr hasTy_nat _, hasTy_option hasTy_matrix _, hasTy_option hasTy_nat _, hasTy_option hasTy_nat _,
    hasTy_str _ _, hasTy_nat _, hasTy_bool _ _, hasTy_arr hasTy_tree _, hasTy_strings _ _ _ _, trivial⟩

/-! ### The text of a booster -/

variable {st : JStyle}

theorem fromText_spaces (hN : N.Exact) (hst : st.Ok) (b : Booster F D) {u v : List Char}
    (hu : ∀ c ∈ u, jsonSpace c = true) (hv : ∀ c ∈ v, jsonSpace c = true) :
    Booster.fromText N (u ++ b.dumpText N st ++ v) = Booster.fromJson b.jsonDump := by
  obtain ⟨h1, h2⟩ := Json.toText_ok hN boosterTy b.jsonDump (hasTy_booster b)
  rw [Booster.fromText, Booster.dumpText, parseJson_render hst h1 hu hv, Option.bind_some, h2]

theorem dumpText_brace (b : Booster F D) : ∃ s, b.dumpText N st = '{' :: s := by
  rw [Booster.dumpText, Booster.jsonDump, Json.toText, boosterMembers]
  rw [Json.toMembers, JText.render]
  exact ⟨_, rfl⟩

theorem renderMembers_last (l : List (List Char × JText)) : ∃ s, JText.renderMembers st l = s ++ ['}'] := by
  induction l with
  | nil => exact ⟨[], by rw [JText.renderMembers]; rfl⟩
  | cons p l ih =>
    obtain ⟨k, v⟩ := p
    obtain ⟨s, e⟩ := ih
    rw [JText.renderMembers, e]
    simp only [← List.append_assoc]
    exact ⟨_, rfl⟩

theorem dumpText_last (b : Booster F D) : ∃ s, b.dumpText N st = s ++ ['}'] := by
  rw [Booster.dumpText, Booster.jsonDump, Json.toText, boosterMembers]
  rw [Json.toMembers, JText.render]
  obtain ⟨s, e⟩ := renderMembers_last (st := st) (Json.toMembers N (boosterMembers b).tail)
  rw [boosterMembers, List.tail_cons] at e
  rw [e]
  simp only [← List.append_assoc, ← List.cons_append]
  exact ⟨_, rfl⟩

theorem parse_dumpText (hN : N.Exact) (hst : st.Ok) (b : Booster F D) :
    parseJson (b.dumpText N st) = some (b.jsonDump.toText N) := by
  obtain ⟨h1, -⟩ := Json.toText_ok hN boosterTy b.jsonDump (hasTy_booster b)
  have := parseJson_render hst h1 (a := []) (b := []) (by simp) (by simp)
  rwa [List.nil_append, List.append_nil] at this

end

end Verif

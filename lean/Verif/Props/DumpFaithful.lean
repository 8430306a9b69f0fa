import Std.Data.String.ToNat
import Std.Data.String.ToInt
import Verif.Model.Dump
import Verif.Props.Dump
import Verif.Proofs.RelateContrib

/-!
# C96 The text dump determines the trees
-/

namespace Verif

open scoped Verif

variable {F D : Type}

/-- A way to print numbers: different numbers print differently, and no printed number has a comma, a closing
bracket or a line break in it.  Rust prints the shortest digits that read back as the same float, or `NaN`, `inf`,
`-inf`. -/
structure Prints {T : Type} (s : T → String) : Prop where
  inj : ∀ x y, s x = s y → x = y
  comma : ∀ x, ',' ∉ (s x).toList
  bracket : ∀ x, ']' ∉ (s x).toList
  line : ∀ x, '\n' ∉ (s x).toList

/-- The two nodes agree in everything the dump shows: number, depth, kind, cover, and the value of a leaf or the
split of an internal node. -/
structure SameShown (n n' : Node F D) : Prop where
  num : n.num = n'.num
  depth : n.depth = n'.depth
  leaf : n.isLeaf = n'.isLeaf
  cover : n.hessianSum = n'.hessianSum
  value : n.isLeaf = true → n.weightValue = n'.weightValue
  feature : n.isLeaf = false → n.splitFeature = n'.splitFeature
  split : n.isLeaf = false → n.splitValue = n'.splitValue
  left : n.isLeaf = false → n.leftChild = n'.leftChild
  right : n.isLeaf = false → n.rightChild = n'.rightChild
  missing : n.isLeaf = false → n.missingNode = n'.missingNode
  gain : n.isLeaf = false → n.splitGain = n'.splitGain

theorem cut_at {c : Char} {a a' r r' : List Char} (h : c ∉ a) (h' : c ∉ a') (he : a ++ c :: r = a' ++ c :: r') :
    a = a' ∧ r = r' := by
  induction a generalizing a' with
  | nil =>
    cases a' with
    | nil => simpa using he
    | cons b l => simp only [List.nil_append, List.cons_append, List.cons.injEq] at he; simp [he.1] at h'
  | cons b l ih =>
    cases a' with
    | nil => simp only [List.nil_append, List.cons_append, List.cons.injEq] at he; simp [he.1] at h
    | cons b' l' =>
      simp only [List.cons_append, List.cons.injEq] at he
      simp only [List.mem_cons, not_or] at h h'
      obtain ⟨h1, h2⟩ := ih h.2 h'.2 he.2
      exact ⟨by rw [he.1, h1], h2⟩

theorem cut_pad {k k' : Nat} {r r' : List Char} (h : ∀ x, r ≠ ' ' :: x) (h' : ∀ x, r' ≠ ' ' :: x)
    (he : List.replicate k ' ' ++ r = List.replicate k' ' ' ++ r') : k = k' ∧ r = r' := by
  induction k generalizing k' with
  | zero =>
    cases k' with
    | zero => simpa using he
    | succ k' => exact absurd he (by rw [List.replicate_succ]; exact h _)
  | succ k ih =>
    cases k' with
    | zero => exact absurd he.symm (by rw [List.replicate_succ]; exact h' _)
    | succ k' =>
      simp only [List.replicate_succ, List.cons_append, List.cons.injEq, true_and] at he
      obtain ⟨h1, h2⟩ := ih he
      exact ⟨by rw [h1], h2⟩

theorem pad_list (n : Nat) : (String.join (List.replicate n "      ")).toList = List.replicate (6 * n) ' ' := by
  rw [String.toList_join]
  induction n with
  | zero => rfl
  | succ n ih =>
    rw [List.replicate_succ, List.flatMap_cons, ih, show 6 * (n + 1) = 6 + 6 * n by omega, List.replicate_add]
    rfl

theorem digits_of (n : Nat) {c : Char} (h : c ∈ (toString n).toList) : c.isDigit = true :=
  Nat.isDigit_of_mem_toDigits (b := 10) (by decide) (by decide) (by simpa [Nat.toString_eq_repr, Nat.repr] using h)

theorem digits_not (n : Nat) (c : Char) (hc : c.isDigit = false := by decide) : c ∉ (toString n).toList :=
  fun h => by rw [digits_of n h] at hc; exact absurd hc (by decide)

theorem digits_inj {a b : Nat} (h : (toString a).toList = (toString b).toList) : a = b :=
  Nat.repr_injective (by simpa using String.toList_injective h)

theorem digits_cons (n : Nat) : ∃ c l, (toString n).toList = c :: l ∧ c ≠ ' ' := by
  cases h : (toString n).toList with
  | nil =>
    exact absurd h (by simp [Nat.toString_eq_repr])
  | cons c l =>
    refine ⟨c, l, rfl, ?_⟩
    rintro rfl
    exact digits_not n ' ' (by decide) (by rw [h]; simp)

theorem display_leaf (sf : F → String) (sd : D → String) (n : Node F D) (h : n.isLeaf = true) :
    (n.display sf sd).toList = (toString n.num).toList ++ ':' :: ("leaf=".toList ++
      ((sf n.weightValue).toList ++ ',' :: ("cover=".toList ++ (sf n.hessianSum).toList))) := by
  rw [Node.display, if_pos h]
  simp [toString, String.toList_append]

theorem display_split (sf : F → String) (sd : D → String) (n : Node F D) (h : n.isLeaf = false) :
    (n.display sf sd).toList = (toString n.num).toList ++ ':' :: ('[' :: ((toString n.splitFeature).toList ++
      ' ' :: ("< ".toList ++ ((sd n.splitValue).toList ++ ']' :: (" yes=".toList ++
      ((toString n.leftChild).toList ++ ',' :: ("no=".toList ++
      ((toString n.rightChild).toList ++ ',' :: ("missing=".toList ++
      ((toString n.missingNode).toList ++ ',' :: ("gain=".toList ++
      ((sf n.splitGain).toList ++ ',' :: ("cover=".toList ++ (sf n.hessianSum).toList))))))))))))) := by
  rw [Node.display, if_neg (by simp [h])]
  simp [toString, String.toList_append]

theorem Prints.list_inj {T : Type} {s : T → String} (hs : Prints s) {x y : T} (h : (s x).toList = (s y).toList) :
    x = y := hs.inj _ _ (String.toList_injective h)

/-- One printed line, followed by its line break, can be read back. -/
theorem node_read {sf : F → String} {sd : D → String} (hf : Prints sf) (hd : Prints sd) (n n' : Node F D)
    (r r' : List Char)
    (he : (n.display sf sd).toList ++ '\n' :: r = (n'.display sf sd).toList ++ '\n' :: r') :
    (n.depth = n'.depth → SameShown n n') ∧ r = r' := by
  cases h : n.isLeaf <;> cases h' : n'.isLeaf
  · rw [display_split sf sd n h, display_split sf sd n' h'] at he
    simp only [List.append_assoc, List.cons_append] at he
    obtain ⟨h1, he⟩ := cut_at (digits_not _ _) (digits_not _ _) he
    rw [List.cons.injEq] at he
    obtain ⟨h2, he⟩ := cut_at (digits_not _ _) (digits_not _ _) he.2
    replace he := List.append_cancel_left he
    obtain ⟨h3, he⟩ := cut_at (hd.bracket _) (hd.bracket _) he
    replace he := List.append_cancel_left he
    obtain ⟨h4, he⟩ := cut_at (digits_not _ _) (digits_not _ _) he
    replace he := List.append_cancel_left he
    obtain ⟨h5, he⟩ := cut_at (digits_not _ _) (digits_not _ _) he
    replace he := List.append_cancel_left he
    obtain ⟨h6, he⟩ := cut_at (digits_not _ _) (digits_not _ _) he
    replace he := List.append_cancel_left he
    obtain ⟨h7, he⟩ := cut_at (hf.comma _) (hf.comma _) he
    replace he := List.append_cancel_left he
    obtain ⟨h8, he⟩ := cut_at (hf.line _) (hf.line _) he
    refine ⟨fun hdep => ⟨digits_inj h1, hdep, by rw [h, h'], hf.list_inj h8, fun hl => by simp [h] at hl, fun _ => digits_inj h2,
      fun _ => hd.list_inj h3, fun _ => digits_inj h4, fun _ => digits_inj h5, fun _ => digits_inj h6,
      fun _ => hf.list_inj h7⟩, he⟩
  · rw [display_split sf sd n h, display_leaf sf sd n' h'] at he
    simp only [List.append_assoc, List.cons_append] at he
    obtain ⟨h1, he⟩ := cut_at (digits_not _ _) (digits_not _ _) he
    exact absurd he (by simp)
  · rw [display_leaf sf sd n h, display_split sf sd n' h'] at he
    simp only [List.append_assoc, List.cons_append] at he
    obtain ⟨h1, he⟩ := cut_at (digits_not _ _) (digits_not _ _) he
    exact absurd he (by simp)
  · rw [display_leaf sf sd n h, display_leaf sf sd n' h'] at he
    simp only [List.append_assoc, List.cons_append] at he
    obtain ⟨h1, he⟩ := cut_at (digits_not _ _) (digits_not _ _) he
    replace he := List.append_cancel_left he
    obtain ⟨h2, he⟩ := cut_at (hf.comma _) (hf.comma _) he
    replace he := List.append_cancel_left he
    obtain ⟨h3, he⟩ := cut_at (hf.line _) (hf.line _) he
    refine ⟨fun hdep => ⟨digits_inj h1, hdep, by rw [h, h'], hf.list_inj h3, fun _ => hf.list_inj h2,
      fun hl => by simp [h] at hl, fun hl => by simp [h] at hl, fun hl => by simp [h] at hl,
      fun hl => by simp [h] at hl, fun hl => by simp [h] at hl, fun hl => by simp [h] at hl⟩, he⟩

theorem display_start (sf : F → String) (sd : D → String) (n : Node F D) (r x : List Char) :
    (n.display sf sd).toList ++ r ≠ ' ' :: x := by
  obtain ⟨c, l, h, hc⟩ := digits_cons n.num
  cases hl : n.isLeaf
  · rw [display_split sf sd n hl, h]
    simp [hc]
  · rw [display_leaf sf sd n hl, h]
    simp [hc]

/-- The text of a list of nodes, read back. -/
theorem lines_read {sf : F → String} {sd : D → String} (hf : Prints sf) (hd : Prints sd) (l l' : List (Node F D))
    (he : (l.flatMap fun n => (String.join (List.replicate n.depth "      ") ++ n.display sf sd ++ "\n").toList) =
      l'.flatMap fun n => (String.join (List.replicate n.depth "      ") ++ n.display sf sd ++ "\n").toList) :
    List.Forall₂ SameShown l l' := by
  induction l generalizing l' with
  | nil =>
    cases l' with
    | nil => exact .nil
    | cons n' l' => simp [String.toList_append] at he
  | cons n l ih =>
    cases l' with
    | nil => simp [String.toList_append] at he
    | cons n' l' =>
      simp only [List.flatMap_cons, String.toList_append, pad_list, List.append_assoc] at he
      obtain ⟨h1, h2⟩ := cut_pad (display_start sf sd n _) (display_start sf sd n' _) he
      obtain ⟨h3, h4⟩ := node_read hf hd n n' _ _ h2
      change [] ++ _ = [] ++ _ at h4
      rw [List.nil_append, List.nil_append] at h4
      exact .cons (h3 (by omega)) (ih l' (by simpa only [String.toList_append, pad_list, List.append_assoc] using h4))

/-- C96.  Two well-formed trees with the same dump have as many nodes, and agree node by node in everything
shown. -/
theorem C96_fields {sf : F → String} {sd : D → String} (hf : Prints sf) (hd : Prints sd) (t t' : Tree F D)
    (h : t.Wf) (h' : t'.Wf) (he : t.display sf sd = t'.display sf sd) :
    List.Forall₂ SameShown t.nodes t'.nodes := by
  obtain ⟨out, h1, hp, -⟩ := C51_dump t h
  obtain ⟨out', h1', hp', -⟩ := C51_dump t' h'
  rw [Tree.display, h1, Res.ok_bind, Tree.display, h1', Res.ok_bind, Res.ok.injEq] at he
  have he := congrArg String.toList he
  rw [String.toList_join, String.toList_join, List.flatMap_map, List.flatMap_map] at he
  have hr := lines_read hf hd out out' he
  have hlen : t.nodes.length = t'.nodes.length := by
    rw [← hp.length_eq, ← hp'.length_eq, hr.length_eq]
  refine List.forall₂_iff_get.2 ⟨hlen, fun i hi hi' => ?_⟩
  have hmem : t.nodes.get ⟨i, hi⟩ ∈ out := hp.mem_iff.2 (List.get_mem _ _)
  obtain ⟨k, hk, hke⟩ := List.getElem_of_mem hmem
  have hk' : k < out'.length := by rw [← hr.length_eq]; exact hk
  have hs := (List.forall₂_iff_get.1 hr).2 k hk hk'
  simp only [List.get_eq_getElem] at hs hke ⊢
  have hm' : out'[k] ∈ t'.nodes := hp'.mem_iff.1 (List.getElem_mem _)
  obtain ⟨j, hj, hje⟩ := List.getElem_of_mem hm'
  have hn := h.num i _ (List.getElem?_eq_getElem hi)
  have hn' := h'.num j _ (List.getElem?_eq_getElem hj)
  have hij : i = j := by
    rw [← hn, ← hn', hje, ← hs.num, hke]
  subst hij
  rw [hje, ← hke]
  exact hs

theorem idx_shown {l l' : List (Node F D)} (h : List.Forall₂ SameShown l l') (i : Nat) :
    (∃ n n', idx l i = .ok n ∧ idx l' i = .ok n' ∧ SameShown n n') ∨ (idx l i = .panic ∧ idx l' i = .panic) := by
  rcases Nat.lt_or_ge i l.length with hi | hi
  · have hi' : i < l'.length := by rw [← h.length_eq]; exact hi
    exact .inl ⟨l[i], l'[i], by simp [idx, hi], by simp [idx, hi'], (List.forall₂_iff_get.1 h).2 i hi hi'⟩
  · have hi' : l'.length ≤ i := by rw [← h.length_eq]; exact hi
    exact .inr ⟨by simp [idx, hi], by simp [idx, hi']⟩

theorem leafFrom_shown [Fl D] {l l' : List (Node F D)} (h : List.Forall₂ SameShown l l') (get : Nat → Res D) (missing : D)
    (fuel i : Nat) :
    (∃ n n', leafFrom l get missing fuel i = .ok n ∧ leafFrom l' get missing fuel i = .ok n' ∧ SameShown n n' ∧
      n.isLeaf = true) ∨
    (leafFrom l get missing fuel i = .panic ∧ leafFrom l' get missing fuel i = .panic) ∨
    (leafFrom l get missing fuel i = .diverge ∧ leafFrom l' get missing fuel i = .diverge) := by
  induction fuel generalizing i with
  | zero => exact .inr (.inr ⟨rfl, rfl⟩)
  | succ fuel ih =>
    rw [leafFrom, leafFrom]
    rcases idx_shown h i with ⟨n, n', h1, h2, hs⟩ | ⟨h1, h2⟩
    · rw [h1, h2, Res.ok_bind, Res.ok_bind, ← hs.leaf]
      cases hl : n.isLeaf
      · rw [if_neg (by simp), if_neg (by simp), ← hs.feature hl]
        cases get n.splitFeature with
        | ok v =>
          simp only [Res.ok_bind, Node.getChildIdx]
          cases isMissing v missing with
          | ok b =>
            simp only [Res.ok_bind]
            rw [← hs.missing hl, ← hs.left hl, ← hs.right hl, ← hs.split hl]
            exact ih _
          | panic => exact .inr (.inl ⟨rfl, rfl⟩)
          | diverge => exact .inr (.inr ⟨rfl, rfl⟩)
        | panic => exact .inr (.inl ⟨rfl, rfl⟩)
        | diverge => exact .inr (.inr ⟨rfl, rfl⟩)
      · exact .inl ⟨n, n', rfl, rfl, hs, hl⟩
    · rw [h1, h2]
      exact .inr (.inl ⟨rfl, rfl⟩)

theorem nodeStats_shown [Fl F] {l l' : List (Node F D)} (h : List.Forall₂ SameShown l l') (stat : Node F D → F)
    (hstat : ∀ n n', SameShown n n' → n.isLeaf = false → stat n = stat n') (fuel : Nat) (n n' : Node F D)
    (hn : SameShown n n') (st : Stats F) : nodeStats stat l fuel n st = nodeStats stat l' fuel n' st := by
  induction fuel generalizing n n' st with
  | zero => rfl
  | succ fuel ih =>
    rw [nodeStats, nodeStats, ← hn.leaf]
    cases hl : n.isLeaf
    · rw [if_neg (by simp), if_neg (by simp)]
      have hb : n'.hasMissingBranch = n.hasMissingBranch := by
        simp only [Node.hasMissingBranch, hn.left hl, hn.right hl, hn.missing hl]
      simp only [← hn.feature hl, ← hn.left hl, ← hn.right hl, ← hn.missing hl,
        ← hstat n n' hn hl]
      have key : ∀ j (st : Stats F), (do let m ← idx l j; nodeStats stat l fuel m st) =
          (do let m ← idx l' j; nodeStats stat l' fuel m st) := by
        intro j st
        rcases idx_shown h j with ⟨m, m', h1, h2, hs⟩ | ⟨h1, h2⟩
        · rw [h1, h2, Res.ok_bind, Res.ok_bind, ih m m' hs]
        · rw [h1, h2]; rfl
      rcases idx_shown h n.leftChild with ⟨a, a', h1, h2, hs⟩ | ⟨h1, h2⟩
      · rw [h1, h2, Res.ok_bind, Res.ok_bind, ih a a' hs]
        refine congrArg _ (funext fun st => ?_)
        rcases idx_shown h n.rightChild with ⟨a, a', h1, h2, hs⟩ | ⟨h1, h2⟩
        · rw [h1, h2, Res.ok_bind, Res.ok_bind, ih a a' hs]
          refine congrArg _ (funext fun st => ?_)
          rw [hb]
          cases n.hasMissingBranch
          · rfl
          · exact key _ _
        · rw [h1, h2]; rfl
      · rw [h1, h2]; rfl
    · rfl

section
variable [Fl F] [Fl D] [FlCast F D]

omit [Fl F] in
theorem predict_shown {t t' : Tree F D} (h : List.Forall₂ SameShown t.nodes t'.nodes) (data : Matrix D) (missing : D) :
    t.predict data missing = t'.predict data missing := by
  rw [Tree.predict, Tree.predict]
  refine congrArg (fun f => Res.mapM' f data.index) (funext fun i => ?_)
  rw [Tree.predictLeaf, Tree.predictLeaf, ← h.length_eq]
  rcases leafFrom_shown h (data.get i) missing t.nodes.length 0 with ⟨n, n', h1, h2, hs, hl⟩ | ⟨h1, h2⟩ | ⟨h1, h2⟩
  · rw [h1, h2, Res.ok_bind, Res.ok_bind, hs.value hl]
  · rw [h1, h2]
  · rw [h1, h2]

omit [Fl F] [FlCast F D] in
theorem leaves_shown {t t' : Tree F D} (h : List.Forall₂ SameShown t.nodes t'.nodes) (data : Matrix D) (missing : D) :
    t.predictLeafIndices data missing = t'.predictLeafIndices data missing := by
  rw [Tree.predictLeafIndices, Tree.predictLeafIndices]
  refine congrArg (fun f => Res.mapM' f data.index) (funext fun i => ?_)
  rw [Tree.predictLeaf, Tree.predictLeaf, ← h.length_eq]
  rcases leafFrom_shown h (data.get i) missing t.nodes.length 0 with ⟨n, n', h1, h2, hs, hl⟩ | ⟨h1, h2⟩ | ⟨h1, h2⟩
  · rw [h1, h2, Res.ok_bind, Res.ok_bind, hs.num]
  · rw [h1, h2]
  · rw [h1, h2]

/-- C96.  Two well-formed trees with the same dump give the same predictions and the same leaves on every
matrix. -/
theorem C96_tree {sf : F → String} {sd : D → String} (hf : Prints sf) (hd : Prints sd) (t t' : Tree F D)
    (h : t.Wf) (h' : t'.Wf) (he : t.display sf sd = t'.display sf sd) (data : Matrix D) (missing : D) :
    t.predict data missing = t'.predict data missing ∧
    t.predictLeafIndices data missing = t'.predictLeafIndices data missing :=
  have hs := C96_fields hf hd t t' h h' he
  ⟨predict_shown hs data missing, leaves_shown hs data missing⟩

omit [Fl D] [FlCast F D] in
theorem importance_shown {t t' : Tree F D} (h : List.Forall₂ SameShown t.nodes t'.nodes) (m : ImportanceMethod)
    (st : Stats F) : t.importance m.stat.1 st = t'.importance m.stat.1 st := by
  have hstat : ∀ n n' : Node F D, SameShown n n' → n.isLeaf = false → m.stat.1 n = m.stat.1 n' := by
    intro n n' hs hl
    cases m <;> simp [ImportanceMethod.stat, hs.cover, hs.gain hl]
  rw [Tree.importance, Tree.importance, ← h.length_eq]
  rcases idx_shown h 0 with ⟨n, n', h1, h2, hs⟩ | ⟨h1, h2⟩
  · rw [h1, h2, Res.ok_bind, Res.ok_bind, nodeStats_shown h _ hstat _ n n' hs]
  · rw [h1, h2]; rfl

omit [Fl F] [Fl D] [FlCast F D] in
theorem dump_shown {sf : F → String} {sd : D → String} (hf : Prints sf) (hd : Prints sd) (l l' : List (Tree F D))
    (h : ∀ t ∈ l, t.Wf) (h' : ∀ t ∈ l', t.Wf)
    (he : Res.mapM' (fun t => t.display sf sd) l = Res.mapM' (fun t => t.display sf sd) l') :
    List.Forall₂ (fun t t' : Tree F D => List.Forall₂ SameShown t.nodes t'.nodes) l l' := by
  obtain ⟨ss, hss⟩ : ∃ ss, Res.mapM' (fun t : Tree F D => t.display sf sd) l = .ok ss :=
    Res.mapM'_exists fun t ht => by
      obtain ⟨out, -, ho⟩ := C51_text sf sd t (h t ht)
      exact ⟨_, ho⟩
  rw [hss, eq_comm] at he
  rw [Res.mapM'_eq_ok] at hss he
  induction hss generalizing l' with
  | nil => cases he; exact .nil
  | cons hd1 _ ih =>
    cases he with
    | cons hd2 htl =>
      refine .cons (C96_fields hf hd _ _ (h _ (by simp)) (h' _ (by simp)) (hd1.trans hd2.symm)) ?_
      exact ih _ (fun t ht => h t (by simp [ht])) (fun t ht => h' t (by simp [ht])) htl

/-- C96.  Two models of well-formed trees with the same dump, base score, missing value and number of trees used for
prediction give the same predictions and leaves on every matrix; and the same feature importances, by every
method. -/
theorem C96_model {sf : F → String} {sd : D → String} (hf : Prints sf) (hd : Prints sd) (b b' : Booster F D)
    (h : ∀ t ∈ b.trees, t.Wf) (h' : ∀ t ∈ b'.trees, t.Wf) (he : b.textDump sf sd = b'.textDump sf sd)
    (hb : b.baseScore = b'.baseScore) (hm : b.missing = b'.missing)
    (hi : b.predictionIteration = b'.predictionIteration) :
    (∀ data, b.predict data = b'.predict data ∧ b.predictLeafIndices data = b'.predictLeafIndices data) ∧
    ∀ S m normalize, b.featureImportance S m normalize = b'.featureImportance S m normalize := by
  have hs := dump_shown hf hd b.trees b'.trees h h' he
  refine ⟨fun data => ?_, fun S m normalize => ?_⟩
  · have hlen := hs.length_eq
    have hts : (∃ ts ts', b.predictionTrees = .ok ts ∧ b'.predictionTrees = .ok ts' ∧
        List.Forall₂ (fun t t' : Tree F D => List.Forall₂ SameShown t.nodes t'.nodes) ts ts') ∨
        (b.predictionTrees = .panic ∧ b'.predictionTrees = .panic) := by
      simp only [Booster.predictionTrees, ← hi, ← hlen]
      split
      · exact .inl ⟨_, _, rfl, rfl, List.forall₂_take _ hs⟩
      · exact .inr ⟨rfl, rfl⟩
    rcases hts with ⟨ts, ts', h1, h2, h3⟩ | ⟨h1, h2⟩
    · rw [Booster.predict, Booster.predict, Booster.predictLeafIndices, Booster.predictLeafIndices, h1, h2]
      simp only [Res.ok_bind]
      refine ⟨?_, ?_⟩
      · rw [hb, hm]
        refine (foldM'_rel h3 (fun c t t' ht => ?_) _).symm
        rw [predict_shown ht]
      · rw [hm, mapM'_rel h3 (fun t t' ht => (leaves_shown ht data b'.missing).symm)]
    · rw [Booster.predict, Booster.predict, Booster.predictLeafIndices, Booster.predictLeafIndices, h1, h2]
      exact ⟨rfl, rfl⟩
  · rw [Booster.featureImportance, Booster.featureImportance]
    simp only []
    rw [foldM'_rel hs (fun c t t' ht => (importance_shown ht m c).symm)]

end

/-- Prints an exact number as a fraction. -/
def showQ : Q → String
  | .nan => "NaN"
  | .ninf => "-inf"
  | .pinf => "inf"
  | .fin x => toString x.num ++ "/" ++ toString x.den

theorem showQ_prints : Prints showQ := by
  have hint : ∀ (z : Int) (c : Char), c ∈ (toString z).toList → c.isDigit = true ∨ c = '-' := by
    intro z c hc
    cases z with
    | ofNat n => exact .inl (digits_of n hc)
    | negSucc n =>
      have : toString (Int.negSucc n) = "-" ++ toString (n + 1) := rfl
      rw [this, String.toList_append, List.mem_append] at hc
      rcases hc with hc | hc
      · exact .inr (by simpa using hc)
      · exact .inl (digits_of _ hc)
  have hfin : ∀ (x : ℚ) (c : Char), c ∈ (showQ (.fin x)).toList → c.isDigit = true ∨ c = '-' ∨ c = '/' := by
    intro x c hc
    simp only [showQ, String.toList_append, List.mem_append] at hc
    rcases hc with (hc | hc) | hc
    · rcases hint _ _ hc with h | h
      · exact .inl h
      · exact .inr (.inl h)
    · exact .inr (.inr (by simpa using hc))
    · exact .inl (digits_of _ hc)
  have hno : ∀ (c : Char), c.isDigit = false → c ≠ '-' → c ≠ '/' → c ∉ "NaN".toList → c ∉ "-inf".toList →
      c ∉ "inf".toList → ∀ x, c ∉ (showQ x).toList := by
    intro c h1 h2 h3 h4 h5 h6 x hc
    cases x with
    | nan => exact h4 hc
    | ninf => exact h5 hc
    | pinf => exact h6 hc
    | fin x =>
      rcases hfin x c hc with h | h | h
      · rw [h1] at h; exact absurd h (by decide)
      · exact h2 h
      · exact h3 h
  have hsl : ∀ x : ℚ, '/' ∈ (showQ (.fin x)).toList := by
    intro x; simp [showQ, String.toList_append]
  refine ⟨?_, hno ',' (by decide) (by decide) (by decide) (by decide) (by decide) (by decide),
    hno ']' (by decide) (by decide) (by decide) (by decide) (by decide) (by decide),
    hno '\n' (by decide) (by decide) (by decide) (by decide) (by decide) (by decide)⟩
  intro x y h
  cases x with
  | fin a =>
    cases y with
    | fin b =>
      have h := congrArg String.toList h
      simp only [showQ, String.toList_append, List.append_assoc] at h
      have hsep : ∀ z : Int, '/' ∉ (toString z).toList := fun z hz => by
        rcases hint z '/' hz with h | h
        · exact absurd h (by decide)
        · exact absurd h (by decide)
      obtain ⟨h1, h2⟩ := cut_at (hsep _) (hsep _) (show _ ++ '/' :: _ = _ ++ '/' :: _ from h)
      have hn : a.num = b.num := Int.repr_injective (String.toList_injective h1)
      have hd : a.den = b.den := digits_inj h2
      rw [Rat.ext hn hd]
    | nan => have := hsl a; rw [h] at this; exact absurd this (by decide)
    | ninf => have := hsl a; rw [h] at this; exact absurd this (by decide)
    | pinf => have := hsl a; rw [h] at this; exact absurd this (by decide)
  | nan =>
    cases y with
    | fin b => have := hsl b; rw [← h] at this; exact absurd this (by decide)
    | nan => rfl
    | ninf => exact absurd h (by decide)
    | pinf => exact absurd h (by decide)
  | ninf =>
    cases y with
    | fin b => have := hsl b; rw [← h] at this; exact absurd this (by decide)
    | nan => exact absurd h (by decide)
    | ninf => rfl
    | pinf => exact absurd h (by decide)
  | pinf =>
    cases y with
    | fin b => have := hsl b; rw [← h] at this; exact absurd this (by decide)
    | nan => exact absurd h (by decide)
    | ninf => exact absurd h (by decide)
    | pinf => rfl

/-- The value of an internal node is not shown: the trees differ, the dumps and the predictions do not. -/
def exTreeB : Tree Q Q :=
  { nodes := exTree.nodes.map fun n => if n.isLeaf then n else { n with weightValue := q 9 } }

example : exTree ≠ exTreeB ∧ exTree.Wf ∧ exTreeB.Wf ∧ exTree.display showQ showQ = exTreeB.display showQ showQ ∧
    exTree.predict exData FX.nan = exTreeB.predict exData FX.nan :=
  have h1 : exTree.Wf := Tree.wf_of_check _ (by decide +kernel)
  have h2 : exTreeB.Wf := Tree.wf_of_check _ (by decide +kernel)
  have h3 : exTree.display showQ showQ = exTreeB.display showQ showQ := by rfl
  ⟨by decide +kernel, h1, h2, h3, (C96_tree showQ_prints showQ_prints _ _ h1 h2 h3 exData FX.nan).1⟩

/-- The dump does not show the base score, so it does not fix the predictions by itself. -/
theorem C96_base : ∃ b b' : Booster Q Q, b.textDump showQ showQ = b'.textDump showQ showQ ∧
    (∀ t ∈ b.trees, t.Wf) ∧ b.predict exData ≠ b'.predict exData :=
  ⟨exBooster, { exBooster with baseScore := q 7 }, rfl, by
    intro t ht
    simp only [exBooster, List.mem_cons, List.not_mem_nil, or_false] at ht
    rcases ht with rfl | rfl <;> exact Tree.wf_of_check _ (by decide +kernel), by decide +kernel⟩

end Verif

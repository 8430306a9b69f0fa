import Verif.Proofs.Subtree
import Verif.Proofs.Contrib
import Verif.Props.Dump
import Verif.Spec.ExampleFit

/-!
# C40 Feature importance
-/

namespace Verif

open scoped Verif

section any

variable {F D : Type} [Fl F]

/-- Add one node to the statistics. -/
def addNode (stat : Node F D → F) (st : Stats F) (n : Node F D) : Stats F :=
  if n.isLeaf then st else statsAdd st n.splitFeature (stat n)

theorem nodeStats_eq {t : Tree F D} (h : t.Wf) (stat : Node F D → F) (fuel i : Nat) (n : Node F D)
    (st : Stats F) (hn : t.nodes[i]? = some n) (hf : t.nodes.length ≤ i + fuel) :
    nodeStats stat t.nodes fuel n st = .ok ((walk (t.at_ Node.kidsStats) fuel i).foldl
      (fun st j => (t.nodes[j]?.toList).foldl (addNode stat) st) st) := by
  have hk := h.kidsStats
  induction fuel generalizing i n st with
  | zero =>
    have := (List.getElem?_eq_some_iff.1 hn).1
    omega
  | succ fuel ih =>
    rw [nodeStats, walk, List.foldl_cons, hn, Option.toList_some, List.foldl_cons, List.foldl_nil,
      Tree.at_, hn, addNode]
    by_cases hl : n.isLeaf = true
    · simp [hl, Node.kidsStats]
    · have hl' : n.isLeaf = false := by simpa using hl
      have hc : ∀ j, n.IsChild j → ∃ c, t.nodes[j]? = some c ∧ t.nodes.length ≤ j + fuel := by
        intro j hj
        have := h.child i n j hn hj
        exact ⟨t.nodes[j], List.getElem?_eq_getElem this.2, by omega⟩
      obtain ⟨l, hl1, hl2⟩ := hc n.leftChild ⟨hl', .inl rfl⟩
      obtain ⟨r, hr1, hr2⟩ := hc n.rightChild ⟨hl', .inr (.inl rfl)⟩
      obtain ⟨m, hm1, hm2⟩ := hc n.missingNode ⟨hl', .inr (.inr rfl)⟩
      simp only [hl', Bool.false_eq_true, if_false, idx, hl1, hr1, hm1, Res.ofOption_some, Res.ok_bind,
        ih _ l _ hl1 hl2, ih _ r _ hr1 hr2, ih _ m _ hm1 hm2, Node.kidsStats]
      by_cases hm : n.hasMissingBranch = true
      · simp only [hm, if_true, List.flatMap_cons, List.flatMap_nil, List.foldl_append, List.append_nil]
      · simp only [hm, if_false, List.flatMap_cons, List.flatMap_nil, List.foldl_append, List.append_nil,
          Bool.false_eq_true]

/-- The importance traversal of a well-formed tree adds every node exactly once, in some order. -/
theorem importance_eq {t : Tree F D} (h : t.Wf) (stat : Node F D → F) :
    ∃ l : List (Node F D), l.Perm t.nodes ∧
      ∀ st, t.importance stat st = .ok (l.foldl (addNode stat) st) := by
  have h0 : 0 < t.nodes.length := List.length_pos_iff.2 h.nonempty
  have hn : t.nodes[0]? = some t.nodes[0] := List.getElem?_eq_getElem h0
  refine ⟨(walk (t.at_ Node.kidsStats) t.nodes.length 0).flatMap fun i => (t.nodes[i]?).toList, ?_, ?_⟩
  · refine ((walk_perm h h.kidsStats).flatMap_right _).trans ?_
    rw [range_flatMap_getElem?]
  · intro st
    rw [Tree.importance, idx, hn, Res.ofOption_some, Res.ok_bind,
      nodeStats_eq h stat t.nodes.length 0 _ st hn (by omega), List.foldl_flatMap]

theorem lookup_statsAdd (st : Stats F) (g : Nat) (v : F) (f : Nat) :
    (statsAdd st g v).lookup f = if f = g then some (match st.lookup f with
      | none => (v, 1)
      | some (x, c) => (x + v, c + 1)) else st.lookup f := by
  induction st with
  | nil =>
    by_cases h : f = g
    · subst h; simp [statsAdd]
    · have h' : (f == g) = false := by simpa using h
      simp [statsAdd, List.lookup, h', h]
  | cons p st ih =>
    obtain ⟨k, x, c⟩ := p
    rw [statsAdd]
    by_cases hk : k = g
    · subst hk
      by_cases h : f = k
      · subst h; simp
      · have h' : (f == k) = false := by simpa using h
        simp [List.lookup, h', h]
    · rw [if_neg hk]
      by_cases h : f = k
      · subst h; simp [hk]
      · have h' : (f == k) = false := by simpa using h
        simp only [List.lookup, h', ih]

theorem keys_statsAdd (st : Stats F) (g : Nat) (v : F) :
    (statsAdd st g v).map Prod.fst = if g ∈ st.map Prod.fst then st.map Prod.fst
      else st.map Prod.fst ++ [g] := by
  induction st with
  | nil => simp [statsAdd]
  | cons p st ih =>
    obtain ⟨k, x, c⟩ := p
    rw [statsAdd]
    by_cases hk : k = g
    · subst hk; simp
    · have hk' : g ≠ k := fun e => hk e.symm
      rw [if_neg hk, List.map_cons, ih]
      by_cases hg : g ∈ st.map Prod.fst
      · rw [if_pos hg, if_pos (by simp only [List.map_cons, List.mem_cons]; exact .inr hg)]
        rfl
      · rw [if_neg hg, if_neg (by simp only [List.map_cons, List.mem_cons]; tauto)]
        rfl

theorem nodup_statsAdd (st : Stats F) (g : Nat) (v : F) (h : (st.map Prod.fst).Nodup) :
    ((statsAdd st g v).map Prod.fst).Nodup := by
  rw [keys_statsAdd]
  split
  · exact h
  · next hg =>
    rw [List.nodup_append]
    refine ⟨h, by simp, ?_⟩
    intro a ha b hb
    rw [List.mem_singleton] at hb
    subst hb
    rintro rfl
    exact hg ha

/-- The internal nodes of the model that split on feature `f`. -/
def Booster.splitsOn (b : Booster F D) (f : Nat) : List (Node F D) :=
  (b.trees.flatMap Tree.nodes).filter fun n => !n.isLeaf && n.splitFeature == f

/-- The statistics collected over all trees. -/
theorem stats_eq (ts : List (Tree F D)) (h : ∀ t ∈ ts, t.Wf) (stat : Node F D → F) :
    ∃ l : List (Node F D), l.Perm (ts.flatMap Tree.nodes) ∧
      ∀ st, Res.foldM' (fun st t => t.importance stat st) st ts = .ok (l.foldl (addNode stat) st) := by
  induction ts with
  | nil => exact ⟨[], .nil, fun st => rfl⟩
  | cons t ts ih =>
    obtain ⟨l1, p1, e1⟩ := importance_eq (h t (by simp)) stat
    obtain ⟨l2, p2, e2⟩ := ih fun t ht => h t (by simp [ht])
    refine ⟨l1 ++ l2, ?_, fun st => ?_⟩
    · rw [List.flatMap_cons]; exact p1.append p2
    · rw [Res.foldM'_cons, e1, Res.ok_bind, e2, List.foldl_append]

end any

section exact

set_option linter.unusedSectionVars false

variable {K : Type} [Field K] [LinearOrder K] {m32 m64 : Fmt K} [m32.Exact] [m64.Exact]

/-- The gains and covers of internal nodes are finite. -/
def Tree.FiniteStats {K : Type} {m32 m64 : Fmt K} (t : Tree (FX m32) (FX m64)) : Prop :=
  ∀ n ∈ t.nodes, n.isLeaf = false → n.splitGain.IsFin ∧ n.hessianSum.IsFin

theorem foldl_addNode (stat : Node (FX m32) (FX m64) → FX m32) (l l0 : List (Node (FX m32) (FX m64)))
    (st : Stats (FX m32)) (hfin : ∀ n ∈ l, n.isLeaf = false → (stat n).IsFin)
    (hst : ∀ f, st.lookup f = match l0.filter (fun n => !n.isLeaf && n.splitFeature == f) with
      | [] => none
      | ns => some (.fin (ns.map fun n => (stat n).val).sum, ns.length))
    (hnd : (st.map Prod.fst).Nodup) :
    ((l.foldl (addNode stat) st).map Prod.fst).Nodup ∧ ∀ f, (l.foldl (addNode stat) st).lookup f =
      match (l0 ++ l).filter (fun n => !n.isLeaf && n.splitFeature == f) with
      | [] => none
      | ns => some (.fin (ns.map fun n => (stat n).val).sum, ns.length) := by
  induction l generalizing l0 st with
  | nil => rw [List.append_nil]; exact ⟨hnd, hst⟩
  | cons n l ih =>
    rw [List.foldl_cons]
    have : l0 ++ n :: l = (l0 ++ [n]) ++ l := by simp
    rw [this]
    apply ih (l0 ++ [n]) (addNode stat st n) (fun n hn => hfin n (by simp [hn]))
    · intro f
      rw [addNode, List.filter_append]
      by_cases hl : n.isLeaf = true
      · simp only [hl, if_true, hst]
        simp [hl]
      · have hl' : n.isLeaf = false := by simpa using hl
        obtain ⟨v, hv⟩ := hfin n (by simp) hl'
        simp only [hl', Bool.false_eq_true, if_false, lookup_statsAdd]
        by_cases hf : f = n.splitFeature
        · subst hf
          simp only [if_true, List.filter_cons, hl', Bool.not_false, beq_self_eq_true, Bool.and_true,
            List.filter_nil]
          rw [hst]
          cases hl0 : l0.filter (fun m => !m.isLeaf && m.splitFeature == n.splitFeature) with
          | nil => simp [hv, FX.val]
          | cons a as =>
            simp [hv, FX.val, add_assoc, List.sum_append]
        · have : (n.splitFeature == f) = false := by simpa using fun e => hf e.symm
          simp [hf, this, hst]
    · rw [addNode]
      split
      · exact hnd
      · exact nodup_statsAdd _ _ _ hnd

/-- The unnormalised importance of a feature with splits `ns` (not empty), by method. -/
def expectedImportance (m : ImportanceMethod) (ns : List (Node (FX m32) (FX m64))) : K :=
  match m with
  | .weight => (ns.length : K)
  | .gain => (ns.map fun n => n.splitGain.val).sum / (ns.length : K)
  | .totalGain => (ns.map fun n => n.splitGain.val).sum
  | .cover => (ns.map fun n => n.hessianSum.val).sum / (ns.length : K)
  | .totalCover => (ns.map fun n => n.hessianSum.val).sum

theorem lookup_map_snd {α β γ : Type} [DecidableEq α] (l : List (α × β)) (g : β → γ) (k : α) :
    (l.map fun p => (p.1, g p.2)).lookup k = (l.lookup k).map g := by
  induction l with
  | nil => rfl
  | cons p l ih =>
    obtain ⟨a, x⟩ := p
    rw [List.map_cons]
    by_cases h : k = a
    · subst h; simp
    · have h' : (k == a) = false := by simpa using h
      simp only [List.lookup, h', ih]

variable [CharZero K]

/-- C40.  The unnormalised importance: a feature that no tree splits on is absent; otherwise its value is
the number of splits on it, or the sum or the mean of the stored gains or covers of those splits. -/
theorem C40_importance (S : Sorter) (b : Booster (FX m32) (FX m64)) (m : ImportanceMethod)
    (hwf : ∀ t ∈ b.trees, t.Wf) (hfin : ∀ t ∈ b.trees, t.FiniteStats) :
    ∃ imp : List (Nat × FX m32), b.featureImportance S m false = .ok imp ∧ (imp.map Prod.fst).Nodup ∧
      ∀ f, imp.lookup f = if b.splitsOn f = [] then none
        else some (.fin (expectedImportance m (b.splitsOn f))) := by
  obtain ⟨l, hp, he⟩ := stats_eq b.trees hwf (m.stat (F := FX m32) (D := FX m64)).1
  have hfin' : ∀ n ∈ l, n.isLeaf = false → ((m.stat (F := FX m32) (D := FX m64)).1 n).IsFin := by
    intro n hn hl
    obtain ⟨t, ht, hnt⟩ := List.mem_flatMap.1 (hp.mem_iff.1 hn)
    have := hfin t ht n hnt hl
    cases m
    case weight => exact ⟨1, rfl⟩
    all_goals first | exact this.1 | exact this.2
  obtain ⟨h1, h2⟩ := foldl_addNode (m.stat (F := FX m32) (D := FX m64)).1 l [] [] hfin'
    (by intro f; rfl) (by simp)
  rw [List.nil_append] at h2
  refine ⟨_, by rw [Booster.featureImportance]; simp only [he, Res.ok_bind]; rfl, ?_, ?_⟩
  · rw [List.map_map]; exact h1
  · intro f
    rw [lookup_map_snd _ (fun p : FX m32 × Nat => if (m.stat (F := FX m32) (D := FX m64)).2 = true then
      p.1 / Fl.ofNat p.2 else p.1), h2]
    have hpf : (l.filter fun n => !n.isLeaf && n.splitFeature == f).Perm (b.splitsOn f) := hp.filter _
    cases hl : l.filter fun n => !n.isLeaf && n.splitFeature == f with
    | nil =>
      rw [hl] at hpf
      rw [if_pos hpf.symm.eq_nil]; rfl
    | cons a as =>
      rw [hl] at hpf
      have hne : b.splitsOn f ≠ [] := by
        intro e; rw [e] at hpf; exact absurd hpf.eq_nil (by simp)
      have hlen : (b.splitsOn f).length ≠ 0 := by simpa using hne
      have hlen' : ((b.splitsOn f).length : K) ≠ 0 := by exact_mod_cast hlen
      have hall : ∀ g : Node (FX m32) (FX m64) → K,
          ((a :: as).map g).sum = ((b.splitsOn f).map g).sum := fun g => (hpf.map g).sum_eq
      rw [if_neg hne]
      simp only [Option.map_some, hall, hpf.length_eq]
      cases m
      case weight => simp [ImportanceMethod.stat, expectedImportance, FX.one_def, FX.val]
      all_goals simp [ImportanceMethod.stat, expectedImportance, FX.fin_div _ _ hlen']

omit [m64.Exact] [CharZero K] in
theorem foldl_add_fin (l : List K) (a : K) :
    (l.map (FX.fin (m := m32))).foldl (· + ·) (.fin a) = .fin (a + l.sum) := by
  induction l generalizing a with
  | nil => simp
  | cons x l ih =>
    rw [List.map_cons, List.foldl_cons, FX.fin_add, ih, List.sum_cons, add_assoc]

/-- C40.  Normalised importances are the unnormalised ones divided by their sum, provided that is not
zero; they add up to 1. -/
theorem C40_normalized (S : Sorter) (hS : S.Ok) (b : Booster (FX m32) (FX m64)) (m : ImportanceMethod)
    (hwf : ∀ t ∈ b.trees, t.Wf) (hfin : ∀ t ∈ b.trees, t.FiniteStats)
    (raw : List (Nat × FX m32)) (hraw : b.featureImportance S m false = .ok raw)
    (total : K) (htot : total = (raw.map fun p => p.2.val).sum) (h0 : total ≠ 0) :
    ∃ imp : List (Nat × FX m32), b.featureImportance S m true = .ok imp ∧
      (∀ f, imp.lookup f = (raw.lookup f).map fun v => .fin (v.val / total)) ∧
      (imp.map fun p => p.2.val).sum = 1 := by
  obtain ⟨raw', hraw', hnd, hl⟩ := C40_importance S b m hwf hfin
  rw [hraw] at hraw'
  cases hraw'
  -- all raw values are finite
  have hrf : ∀ p ∈ raw, p.2.IsFin := by
    intro p hp
    have : raw.lookup p.1 = some p.2 := by
      rw [List.lookup_eq_some_iff]
      obtain ⟨l1, l2, e⟩ := List.append_of_mem hp
      refine ⟨l1, l2, e, ?_⟩
      intro q hq
      have : p.1 ≠ q.1 := by
        rw [e, List.map_append, List.map_cons, List.nodup_append] at hnd
        exact fun h => hnd.2.2 q.1 (List.mem_map_of_mem hq) p.1 (by simp) h.symm
      simpa using this
    rw [hl] at this
    split at this
    · cases this
    · exact ⟨_, (Option.some.inj this).symm⟩
  obtain ⟨l, _, he⟩ := stats_eq b.trees hwf (m.stat (F := FX m32) (D := FX m64)).1
  rw [Booster.featureImportance] at hraw ⊢
  simp only [he, Res.ok_bind, if_true] at hraw ⊢
  rw [if_neg (by simp), Res.ok.injEq] at hraw
  rw [hraw]
  have hvals : raw.map Prod.snd = (raw.map fun p => p.2.val).map (FX.fin (m := m32)) := by
    rw [List.map_map]
    exact List.map_congr_left fun p hp => (hrf p hp).eq
  have hnan : (raw.map Prod.snd).any (fun a => isNaN (id a)) = false := by
    rw [hvals, List.any_map]
    simp
  rw [sortPartialCmp, if_neg (by rw [hnan]; simp), Res.ok_bind]
  have hperm := hS.perm (fun a b : FX m32 => id a ≤ᶠ id b) (raw.map Prod.snd)
  have hsum : (S.sort (fun a b : FX m32 => id a ≤ᶠ id b) (raw.map Prod.snd)).foldl (· + ·) 0 =
      .fin total := by
    set s := S.sort (fun a b : FX m32 => id a ≤ᶠ id b) (raw.map Prod.snd) with hs
    have hsf : s = (s.map fun x => x.val).map (FX.fin (m := m32)) := by
      rw [List.map_map]
      conv_lhs => rw [← List.map_id s]
      refine List.map_congr_left fun x hx => ?_
      have hx' := hperm.mem_iff.1 hx
      obtain ⟨p, hp, rfl⟩ := List.mem_map.1 hx'
      exact (hrf p hp).eq
    rw [hsf, FX.zero_def, foldl_add_fin, zero_add, htot, (hperm.map FX.val).sum_eq, List.map_map]
    rfl
  refine ⟨_, rfl, ?_, ?_⟩
  · intro f
    rw [hsum, lookup_map_snd raw (fun v => v / FX.fin total)]
    cases hr : raw.lookup f with
    | none => rfl
    | some v =>
      have : v.IsFin := by
        rw [hl] at hr
        split at hr
        · cases hr
        · exact ⟨_, (Option.some.inj hr).symm⟩
      rw [Option.map_some, Option.map_some, this.eq, FX.fin_div _ _ h0]
      rfl
  · rw [hsum, List.map_map]
    have : (raw.map ((fun p : Nat × FX m32 => p.2.val) ∘ fun p => (p.1, p.2 / FX.fin total))) =
        (raw.map fun p => p.2.val).map (fun x => x / total) := by
      rw [List.map_map]
      refine List.map_congr_left fun p hp => ?_
      simp only [Function.comp]
      rw [(hrf p hp).eq, FX.fin_div _ _ h0]
      rfl
    rw [this]
    have hdiv : ∀ l : List K, (l.map fun x => x / total).sum = l.sum / total := by
      intro l
      induction l with
      | nil => simp
      | cons x l ih => simp [ih, add_div]
    rw [hdiv, ← htot, div_self h0]

end exact

/-! ### Examples -/

example : ∀ t ∈ exBooster.trees, t.Wf := by
  intro t ht
  have : t = exTree ∨ t = exTree2 := by simpa [exBooster] using ht
  rcases this with rfl | rfl
  · exact Tree.wf_of_check _ (by decide +kernel)
  · exact Tree.wf_of_check _ (by decide +kernel)

example : (match exBooster.featureImportance exSorter .gain false with
    | .ok l => l
    | _ => []) = [(0, q 7), (1, q (5/2))] := by
  decide +kernel

example : (match exBooster.featureImportance exSorter .weight true with
    | .ok l => l
    | _ => []) = [(0, q (1/3)), (1, q (2/3))] := by
  decide +kernel

end Verif

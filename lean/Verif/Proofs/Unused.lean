import Verif.Spec.Unused
import Verif.Proofs.ExtraGrow
import Verif.Proofs.Contrib

/-!
# Two rows that agree in the columns a model asks for
-/

namespace Verif

open scoped Verif

set_option linter.unusedSectionVars false

theorem Res.Imp.foldM' {α β γ : Type} {R : β → γ → Prop} {f : β → α → Res β} {g : γ → α → Res γ} {l : List α}
    (h : ∀ a ∈ l, ∀ x y, R x y → Res.Imp R (f x a) (g y a)) :
    ∀ x y, R x y → Res.Imp R (Res.foldM' f x l) (Res.foldM' g y l) := by
  induction l with
  | nil => intro x y hxy; exact .ok hxy
  | cons a l ih =>
    intro x y hxy
    rw [Res.foldM'_cons, Res.foldM'_cons]
    exact (h a (by simp) x y hxy).bind fun x' y' _ _ h' => ih (fun a ha => h a (by simp [ha])) x' y' h'

theorem Res.Imp.mapM' {α β γ : Type} {R : β → γ → Prop} {f : α → Res β} {g : α → Res γ} {l : List α}
    (h : ∀ a ∈ l, Res.Imp R (f a) (g a)) : Res.Imp (List.Forall₂ R) (Res.mapM' f l) (Res.mapM' g l) := by
  induction l with
  | nil => exact .ok .nil
  | cons a l ih =>
    rw [Res.mapM'_cons, Res.mapM'_cons]
    refine (h a (by simp)).bind fun x y _ _ hxy => ?_
    exact (ih fun a ha => h a (by simp [ha])).bind fun xs ys _ _ hs => .ok (.cons hxy hs)

section
variable {F D : Type} [Fl F] [Fl D] [FlCast F D]

/-- Two lists of contributions that agree on the features `U` and in the last place, all other places 0. -/
structure Agreed (U : Nat → Prop) (n n' : Nat) (c c' : List D) : Prop where
  len : c.length = n + 1
  len' : c'.length = n' + 1
  used : ∀ f, U f → c'[f]? = c[f]?
  bias : c'[n']? = c[n]?
  zero : ∀ f < n, ¬ U f → c[f]? = some 0
  zero' : ∀ f < n', ¬ U f → c'[f]? = some 0

variable {U : Nat → Prop} {n n' : Nat}

omit [Fl F] [FlCast F D] in
theorem Agreed.init (hU : ∀ f, U f → f < n ∧ f < n') (bias : D) :
    Agreed U n n' (initContribs n bias) (initContribs n' bias) where
  len := by simp [initContribs]
  len' := by simp [initContribs]
  used := by
    intro f hf
    obtain ⟨h1, h2⟩ := hU f hf
    rw [initContribs, initContribs, List.getElem?_append_left (by simpa using h2),
      List.getElem?_append_left (by simpa using h1), List.getElem?_replicate, List.getElem?_replicate,
      if_pos h1, if_pos h2]
  bias := by simp [initContribs]
  zero := by
    intro f hf _
    rw [initContribs, List.getElem?_append_left (by simpa using hf), List.getElem?_replicate, if_pos hf]
  zero' := by
    intro f hf _
    rw [initContribs, List.getElem?_append_left (by simpa using hf), List.getElem?_replicate, if_pos hf]

omit [Fl F] [FlCast F D] in
theorem Agreed.addAt (hU : ∀ f, U f → f < n ∧ f < n') {c c' : List D} (h : Agreed U n n' c c') {f : Nat} (hf : U f)
    (v : D) : Res.Imp (Agreed U n n') (addAt c f v) (addAt c' f v) := by
  obtain ⟨h1, h2⟩ := hU f hf
  have e1 : f < c.length := by rw [h.len]; omega
  have e2 : f < c'.length := by rw [h.len']; omega
  have e3 : c'[f] = c[f] := by
    have := h.used f hf
    rw [List.getElem?_eq_getElem e1, List.getElem?_eq_getElem e2] at this
    exact Option.some.inj this
  rw [Verif.addAt, Verif.addAt, idx_of_lt e1, idx_of_lt e2, e3, Res.ok_bind, Res.ok_bind]
  refine .ok ⟨by simpa using h.len, by simpa using h.len', fun g hg => ?_, ?_, fun g hg hn => ?_, fun g hg hn => ?_⟩
  · by_cases hfg : f = g
    · subst hfg
      rw [List.getElem?_set_self e1, List.getElem?_set_self e2]
    · rw [List.getElem?_set_ne hfg, List.getElem?_set_ne hfg, h.used g hg]
  · rw [List.getElem?_set_ne (by omega), List.getElem?_set_ne (by omega), h.bias]
  · rw [List.getElem?_set_ne (by rintro rfl; exact hn hf)]; exact h.zero g hg hn
  · rw [List.getElem?_set_ne (by rintro rfl; exact hn hf)]; exact h.zero' g hg hn

omit [Fl F] [FlCast F D] in
theorem Agreed.addBias (hU : ∀ f, U f → f < n ∧ f < n') {c c' : List D} (h : Agreed U n n' c c') (v : D) :
    Res.Imp (Agreed U n n') (addBias c v) (addBias c' v) := by
  rw [Verif.addBias, Verif.addBias, h.len, h.len', Nat.add_sub_cancel, Nat.add_sub_cancel]
  have e1 : n < c.length := by rw [h.len]; omega
  have e2 : n' < c'.length := by rw [h.len']; omega
  have e3 : c'[n'] = c[n] := by
    have := h.bias
    rw [List.getElem?_eq_getElem e1, List.getElem?_eq_getElem e2] at this
    exact Option.some.inj this
  rw [Verif.addAt, Verif.addAt, idx_of_lt e1, idx_of_lt e2, e3, Res.ok_bind, Res.ok_bind]
  refine .ok ⟨by simpa using h.len, by simpa using h.len', fun g hg => ?_, ?_, fun g hg hn => ?_, fun g hg hn => ?_⟩
  · obtain ⟨h1, h2⟩ := hU g hg
    rw [List.getElem?_set_ne (by omega), List.getElem?_set_ne (by omega), h.used g hg]
  · rw [List.getElem?_set_self e1, List.getElem?_set_self e2]
  · rw [List.getElem?_set_ne (by omega)]; exact h.zero g hg hn
  · rw [List.getElem?_set_ne (by omega)]; exact h.zero' g hg hn

/-- Rows that agree on the features `U`. -/
structure RowsAgree (U : Nat → Prop) (n n' : Nat) (row row' : List D) : Prop where
  len : row.length = n
  len' : row'.length = n'
  used : ∀ f, U f → row'[f]? = row[f]?

omit [Fl F] [FlCast F D] in
theorem contribWalk_agreed (hU : ∀ f, U f → f < n ∧ f < n') {nodes : List (Node F D)}
    (hn : ∀ m ∈ nodes, m.isLeaf = false → U m.splitFeature) {row row' : List D} (hr : RowsAgree U n n' row row')
    {missing : D} {delta : Nat → Node F D → Nat → Res (Option D)} : ∀ (fuel i : Nat) (c c' : List D),
    Agreed U n n' c c' → Res.Imp (fun r r' => Agreed U n n' r.1 r'.1 ∧ r'.2 = r.2)
      (contribWalk nodes row missing delta fuel i c) (contribWalk nodes row' missing delta fuel i c')
  | 0, _, _, _, _ => .diverge
  | fuel + 1, i, c, c', h => by
    rw [contribWalk, contribWalk]
    refine (Res.Imp.same _).bind fun node node' hnode _ e => ?_
    subst e
    have hmem := List.mem_of_getElem? (idx_eq_ok.1 hnode)
    by_cases hl : node.isLeaf = true
    · rw [if_pos hl, if_pos hl]; exact .ok ⟨h, rfl⟩
    · rw [if_neg hl, if_neg hl]
      have hu := hn _ hmem (by simpa using hl)
      have e : idx row' node.splitFeature = idx row node.splitFeature := by rw [idx, idx, hr.used _ hu]
      rw [e]
      refine (Res.Imp.same _).bind fun v v' _ _ e => ?_
      subst e
      refine (Res.Imp.same _).bind fun ch ch' _ _ e => ?_
      subst e
      refine (Res.Imp.same _).bind fun d d' _ _ e => ?_
      subst e
      cases d with
      | none => exact contribWalk_agreed hU hn hr fuel ch c c' h
      | some d => exact (h.addAt hU hu d).bind fun a b _ _ hab => contribWalk_agreed hU hn hr fuel ch a b hab

/-! ## Shapley values -/

/-- Path elements that differ at most in a feature outside `U`. -/
structure ElAgree (U : Nat → Prop) (e e' : PathElement F) : Prop where
  zero : e'.zero = e.zero
  one : e'.one = e.one
  pweight : e'.pweight = e.pweight
  feature : ∀ f, U f → (e'.feature = f ↔ e.feature = f)

/-- Paths that differ at most in features outside `U`. -/
abbrev PathAgree (U : Nat → Prop) (p p' : List (PathElement F)) : Prop := List.Forall₂ (ElAgree U) p p'

theorem ElAgree.rfl {e : PathElement F} : ElAgree U e e := ⟨by rfl, by rfl, by rfl, fun _ _ => Iff.rfl⟩

theorem idx_agree {α β : Type} {R : α → β → Prop} {l : List α} {l' : List β} (h : List.Forall₂ R l l') (i : Nat) :
    Res.Imp R (idx l i) (idx l' i) := by
  intro a ha
  have hi := lt_of_idx_eq_ok ha
  have hi' : i < l'.length := by rw [← h.length_eq]; exact hi
  rw [idx_of_lt hi] at ha
  cases ha
  exact ⟨_, idx_of_lt hi', List.Forall₂.get h hi hi'⟩

theorem getEl_agree {p p' : List (PathElement F)} (h : PathAgree U p p') (i : Nat) :
    Res.Imp (fun r r' => ElAgree U r.1 r'.1 ∧ PathAgree U r.2 r'.2) (getEl p i) (getEl p' i) := by
  rw [getEl, getEl, ← h.length_eq]
  by_cases hi : i = p.length
  · rw [if_pos hi, if_pos hi]
    exact .ok ⟨.rfl, List.rel_append h (.cons .rfl .nil)⟩
  · rw [if_neg hi, if_neg hi]
    exact (idx_agree h i).bind fun e e' _ _ he => .ok ⟨he, h⟩

theorem modEl_agree {p p' : List (PathElement F)} (h : PathAgree U p p') (i : Nat)
    {f f' : PathElement F → PathElement F} (hf : ∀ e e', ElAgree U e e' → ElAgree U (f e) (f' e')) :
    Res.Imp (PathAgree U) (modEl p i f) (modEl p' i f') := by
  rw [modEl, modEl]
  exact (getEl_agree h i).bind fun r r' _ _ hr => .ok (forall₂_set hr.2 i (hf _ _ hr.1))

theorem extendLoop_agree {depth : Nat} {zero one : F} : ∀ (i : Nat) (p p' : List (PathElement F)),
    PathAgree U p p' → Res.Imp (PathAgree U) (extendLoop depth zero one i p) (extendLoop depth zero one i p')
  | 0, _, _, h => .ok h
  | i + 1, p, p', h => by
    rw [extendLoop, extendLoop]
    refine (getEl_agree h i).bind fun r r' _ _ hr => ?_
    obtain ⟨e, p⟩ := r; obtain ⟨e', p'⟩ := r'
    obtain ⟨h1, h2⟩ := hr
    dsimp only at h1 h2 ⊢
    rw [h1.pweight]
    refine Res.Imp.bind (modEl_agree h2 (i + 1) ?_) fun p p' _ _ h3 => ?_
    · exact fun a a' ha => ⟨ha.zero, ha.one, by dsimp only; rw [ha.pweight], ha.feature⟩
    refine (getEl_agree h3 i).bind fun r r' _ _ hr => ?_
    obtain ⟨e, p⟩ := r; obtain ⟨e', p'⟩ := r'
    obtain ⟨h1, h2⟩ := hr
    dsimp only at h1 h2 ⊢
    rw [h1.pweight]
    refine Res.Imp.bind (modEl_agree h2 i ?_) fun p p' _ _ h3 => ?_
    · exact fun a a' ha => ⟨ha.zero, ha.one, by rfl, ha.feature⟩
    exact extendLoop_agree i p p' h3

theorem extendPath_agree {depth : Nat} {zero one : F} {pf pf' : Nat} (hpf : ∀ f, U f → (pf' = f ↔ pf = f))
    {p p' : List (PathElement F)} (h : PathAgree U p p') :
    Res.Imp (PathAgree U) (extendPath p depth zero one pf) (extendPath p' depth zero one pf') := by
  rw [extendPath, extendPath]
  refine (modEl_agree h depth fun a a' _ => ⟨by rfl, by rfl, by rfl, hpf⟩).bind fun p p' _ _ h => ?_
  exact extendLoop_agree depth p p' h

theorem unwindLoop_agree {depth : Nat} {zero one : F} : ∀ (i : Nat) (next : F) (p p' : List (PathElement F)),
    PathAgree U p p' → Res.Imp (PathAgree U) (unwindLoop depth zero one i next p)
      (unwindLoop depth zero one i next p')
  | 0, _, _, _, h => .ok h
  | i + 1, next, p, p', h => by
    rw [unwindLoop, unwindLoop]
    refine (getEl_agree h i).bind fun r r' _ _ hr => ?_
    obtain ⟨e, p⟩ := r; obtain ⟨e', p'⟩ := r'
    obtain ⟨h1, h2⟩ := hr
    dsimp only at h1 h2 ⊢
    rw [h1.pweight]
    by_cases hc : (!(one =ᶠ 0)) = true
    · rw [if_pos hc, if_pos hc]
      refine Res.Imp.bind (modEl_agree h2 i ?_) fun p p' _ _ h3 => ?_
      · exact fun a a' ha => ⟨ha.zero, ha.one, by rfl, ha.feature⟩
      exact unwindLoop_agree i _ p p' h3
    · rw [if_neg hc, if_neg hc]
      refine Res.Imp.bind (modEl_agree h2 i ?_) fun p p' _ _ h3 => ?_
      · exact fun a a' ha => ⟨ha.zero, ha.one, by rfl, ha.feature⟩
      exact unwindLoop_agree i _ p p' h3

theorem shiftLoop_agree : ∀ (k i : Nat) (p p' : List (PathElement F)), PathAgree U p p' →
    Res.Imp (PathAgree U) (shiftLoop k i p) (shiftLoop k i p')
  | 0, _, _, _, h => .ok h
  | k + 1, i, p, p', h => by
    rw [shiftLoop, shiftLoop]
    refine (getEl_agree h (i + 1)).bind fun r r' _ _ hr => ?_
    obtain ⟨e, p⟩ := r; obtain ⟨e', p'⟩ := r'
    obtain ⟨h1, h2⟩ := hr
    dsimp only at h1 h2 ⊢
    refine Res.Imp.bind (modEl_agree h2 i ?_) fun p p' _ _ h3 => ?_
    · exact fun a a' ha => ⟨h1.zero, h1.one, ha.pweight, h1.feature⟩
    exact shiftLoop_agree k (i + 1) p p' h3

theorem unwindPath_agree {depth k : Nat} {p p' : List (PathElement F)} (h : PathAgree U p p') :
    Res.Imp (PathAgree U) (unwindPath p depth k) (unwindPath p' depth k) := by
  rw [unwindPath, unwindPath]
  refine (getEl_agree h k).bind fun r r' _ _ hr => ?_
  obtain ⟨e, p⟩ := r; obtain ⟨e', p'⟩ := r'
  obtain ⟨h1, h2⟩ := hr
  dsimp only at h1 h2 ⊢
  refine (getEl_agree h2 depth).bind fun r r' _ _ hr => ?_
  obtain ⟨l, p⟩ := r; obtain ⟨l', p'⟩ := r'
  obtain ⟨h3, h4⟩ := hr
  dsimp only at h3 h4 ⊢
  rw [h1.zero, h1.one, h3.pweight]
  exact (unwindLoop_agree depth _ p p' h4).bind fun p p' _ _ h5 => shiftLoop_agree _ _ p p' h5

theorem unwoundLoop_agree {depth : Nat} {zero one : F} : ∀ (i : Nat) (next total : F)
    (p p' : List (PathElement F)), PathAgree U p p' →
    Res.Imp Eq (unwoundLoop depth zero one i next total p) (unwoundLoop depth zero one i next total p')
  | 0, _, _, _, _, _ => .ok rfl
  | i + 1, next, total, p, p', h => by
    rw [unwoundLoop, unwoundLoop]
    by_cases hc : (!(one =ᶠ 0)) = true
    · rw [if_pos hc, if_pos hc]
      refine (getEl_agree h i).bind fun r r' _ _ hr => ?_
      obtain ⟨e, p⟩ := r; obtain ⟨e', p'⟩ := r'
      obtain ⟨h1, h2⟩ := hr
      dsimp only at h1 h2 ⊢
      rw [h1.pweight]
      exact unwoundLoop_agree i _ _ p p' h2
    · rw [if_neg hc, if_neg hc]
      by_cases hz : (!(zero =ᶠ 0)) = true
      · rw [if_pos hz, if_pos hz]
        refine (getEl_agree h i).bind fun r r' _ _ hr => ?_
        obtain ⟨e, p⟩ := r; obtain ⟨e', p'⟩ := r'
        obtain ⟨h1, h2⟩ := hr
        dsimp only at h1 h2 ⊢
        rw [h1.pweight]
        exact unwoundLoop_agree i _ _ p p' h2
      · rw [if_neg hz, if_neg hz]
        refine (getEl_agree h i).bind fun r r' _ _ hr => ?_
        obtain ⟨e, p⟩ := r; obtain ⟨e', p'⟩ := r'
        obtain ⟨h1, h2⟩ := hr
        dsimp only at h1 h2 ⊢
        rw [h1.pweight]
        split
        · exact .panic
        · exact unwoundLoop_agree i _ _ p p' h2

theorem unwoundPathSum_agree {depth k : Nat} {p p' : List (PathElement F)} (h : PathAgree U p p') :
    Res.Imp Eq (unwoundPathSum p depth k) (unwoundPathSum p' depth k) := by
  rw [unwoundPathSum, unwoundPathSum]
  refine (getEl_agree h k).bind fun r r' _ _ hr => ?_
  obtain ⟨e, p⟩ := r; obtain ⟨e', p'⟩ := r'
  obtain ⟨h1, h2⟩ := hr
  dsimp only at h1 h2 ⊢
  refine (getEl_agree h2 depth).bind fun r r' _ _ hr => ?_
  obtain ⟨l, p⟩ := r; obtain ⟨l', p'⟩ := r'
  obtain ⟨h3, h4⟩ := hr
  dsimp only at h3 h4 ⊢
  rw [h1.zero, h1.one, h3.pweight]
  exact unwoundLoop_agree depth _ _ p p' h4

theorem findOnPath_agree {depth feature : Nat} (hf : U feature) {p p' : List (PathElement F)}
    (h : PathAgree U p p') : ∀ (k i : Nat), Res.Imp Eq (findOnPath p depth feature k i)
      (findOnPath p' depth feature k i)
  | 0, _ => .ok rfl
  | k + 1, i => by
    rw [findOnPath, findOnPath]
    by_cases hi : i ≤ depth
    · rw [if_pos hi, if_pos hi]
      refine (idx_agree h i).bind fun e e' _ _ he => ?_
      by_cases hx : e.feature = feature
      · rw [if_pos hx, if_pos ((he.feature _ hf).2 hx)]; exact .ok rfl
      · rw [if_neg hx, if_neg (fun hh => hx ((he.feature _ hf).1 hh))]
        exact findOnPath_agree hf h k (i + 1)
    · rw [if_neg hi, if_neg hi]; exact .ok rfl

/-- The features on the path up to `d`, the first place excluded, are in `U`. -/
structure OnPath (U : Nat → Prop) (p : List (PathElement F)) (d : Nat) : Prop where
  len : d ≤ p.length
  used : ∀ i, 1 ≤ i → i < d → ∃ f, (p.map PathElement.feature)[i]? = some f ∧ U f

theorem getEl_lt {p : List (PathElement F)} {i : Nat} (h : i < p.length) : getEl p i = .ok (p[i], p) := by
  rw [getEl, if_neg (by omega), idx_of_lt h]; rfl

theorem modEl_lt {p : List (PathElement F)} {i : Nat} (h : i < p.length) (f : PathElement F → PathElement F) :
    modEl p i f = .ok (p.set i (f p[i])) := by
  rw [modEl, getEl_lt h]; rfl

theorem feats_set {p : List (PathElement F)} {i : Nat} (h : i < p.length) {e : PathElement F}
    (he : e.feature = p[i].feature) :
    (p.set i e).map PathElement.feature = p.map PathElement.feature := by
  rw [List.map_set, he]
  apply List.ext_getElem?
  intro j
  rw [List.getElem?_set]
  split
  · rename_i hij
    subst hij
    rw [if_pos (by simpa using h), List.getElem?_map, List.getElem?_eq_getElem h]; rfl
  · rfl

theorem extendLoop_feats {depth : Nat} {zero one : F} : ∀ (i : Nat) (p p' : List (PathElement F)),
    i ≤ depth → depth < p.length → extendLoop depth zero one i p = .ok p' →
    p'.map PathElement.feature = p.map PathElement.feature
  | 0, _, _, _, _, h => by cases h; rfl
  | i + 1, p, p', hi, hd, h => by
    rw [extendLoop, getEl_lt (by omega), Res.ok_bind] at h
    dsimp only at h
    rw [modEl_lt (by omega), Res.ok_bind, getEl_lt (by simp; omega), Res.ok_bind] at h
    dsimp only at h
    rw [modEl_lt (by simp; omega), Res.ok_bind] at h
    rw [extendLoop_feats i _ p' (by omega) (by simpa using hd) h, feats_set (by simp; omega) (by rfl),
      feats_set (by omega) (by rfl)]

theorem OnPath.extend {p p' : List (PathElement F)} {d : Nat} (hp : OnPath U p d) {zero one : F} {pf : Nat}
    (hpf : d = 0 ∨ U pf) (h : extendPath p d zero one pf = .ok p') : OnPath U p' (d + 1) := by
  rw [extendPath] at h
  obtain ⟨q, h1, h2⟩ := Res.bind_eq_ok.1 h
  have key : d < q.length ∧ (q.map PathElement.feature)[d]? = some pf ∧
      ∀ i < d, (q.map PathElement.feature)[i]? = (p.map PathElement.feature)[i]? := by
    rw [modEl] at h1
    rcases Nat.lt_or_ge d p.length with hl | hl
    · rw [getEl_lt hl, Res.ok_bind] at h1
      cases h1
      refine ⟨by simpa using hl, ?_, fun i hi => ?_⟩
      · rw [List.getElem?_map, List.getElem?_set_self hl]; rfl
      · rw [List.getElem?_map, List.getElem?_set_ne (by omega), List.getElem?_map]
    · have hl : d = p.length := by have := hp.len; omega
      rw [getEl, if_pos hl, Res.ok_bind] at h1
      cases h1
      refine ⟨by simp; omega, ?_, fun i hi => ?_⟩
      · rw [List.getElem?_map, List.getElem?_set_self (by simp; omega)]; rfl
      · rw [List.getElem?_map, List.getElem?_set_ne (by omega), List.getElem?_append_left (by omega),
          List.getElem?_map]
  obtain ⟨k1, k2, k3⟩ := key
  have e := extendLoop_feats d q p' (le_refl _) k1 h2
  have el : p'.length = q.length := by simpa using congrArg List.length e
  refine ⟨by omega, fun i h1 hi => ?_⟩
  rw [e]
  rcases Nat.lt_or_ge i d with hlt | hge
  · rw [k3 i hlt]; exact hp.used i h1 hlt
  · obtain rfl : i = d := by omega
    exact ⟨pf, k2, hpf.resolve_left (by omega)⟩

theorem unwindLoop_feats {depth : Nat} {zero one : F} : ∀ (i : Nat) (next : F) (p p' : List (PathElement F)),
    i < p.length → unwindLoop depth zero one i next p = .ok p' →
    p'.map PathElement.feature = p.map PathElement.feature
  | 0, _, _, _, _, h => by cases h; rfl
  | i + 1, next, p, p', hd, h => by
    rw [unwindLoop, getEl_lt (by omega), Res.ok_bind] at h
    dsimp only at h
    split at h
    · rw [modEl_lt (by omega), Res.ok_bind] at h
      rw [unwindLoop_feats i _ _ p' (by simp; omega) h, feats_set (by omega) (by rfl)]
    · rw [modEl_lt (by omega), Res.ok_bind] at h
      rw [unwindLoop_feats i _ _ p' (by simp; omega) h, feats_set (by omega) (by rfl)]

theorem shiftLoop_feats : ∀ (k i : Nat) (p p' : List (PathElement F)), i + k < p.length →
    shiftLoop k i p = .ok p' → p'.length = p.length ∧ ∀ j, (p'.map PathElement.feature)[j]? =
      if i ≤ j ∧ j < i + k then (p.map PathElement.feature)[j + 1]? else (p.map PathElement.feature)[j]?
  | 0, i, p, p', _, h => by
    cases h
    refine ⟨rfl, fun j => ?_⟩
    rw [if_neg (by omega)]
  | k + 1, i, p, p', hd, h => by
    rw [shiftLoop, getEl_lt (by omega), Res.ok_bind] at h
    dsimp only at h
    rw [modEl_lt (by omega), Res.ok_bind] at h
    obtain ⟨h1, h2⟩ := shiftLoop_feats k (i + 1) _ p' (by simp; omega) h
    refine ⟨by simpa using h1, fun j => ?_⟩
    rw [h2 j, List.map_set]
    by_cases h3 : i + 1 ≤ j ∧ j < i + 1 + k
    · rw [if_pos h3, if_pos (by omega), List.getElem?_set_ne (by omega)]
    · rw [if_neg h3]
      by_cases h4 : j = i
      · subst h4
        rw [if_pos (by omega), List.getElem?_set_self (by simp; omega), List.getElem?_map,
          List.getElem?_eq_getElem (show j + 1 < p.length by omega)]
        rfl
      · rw [if_neg (by omega), List.getElem?_set_ne (by omega)]

theorem OnPath.unwind {p p' : List (PathElement F)} {d k : Nat} (hp : OnPath U p (d + 1)) (hk : k ≤ d)
    (h : unwindPath p d k = .ok p') : OnPath U p' (d - 1 + 1) := by
  have hl := hp.len
  rw [unwindPath, getEl_lt (by omega), Res.ok_bind] at h
  dsimp only at h
  rw [getEl_lt (by omega), Res.ok_bind] at h
  dsimp only at h
  obtain ⟨q, h1, h2⟩ := Res.bind_eq_ok.1 h
  have e := unwindLoop_feats _ _ _ _ (by omega) h1
  have el : q.length = p.length := by simpa using congrArg List.length e
  obtain ⟨h3, h4⟩ := shiftLoop_feats _ _ _ _ (by omega) h2
  refine ⟨by omega, fun i hi hd => ?_⟩
  rw [h4 i, e]
  split
  · exact hp.used (i + 1) (by omega) (by omega)
  · exact hp.used i hi (by omega)

theorem leafContribs_agreed (hU : ∀ f, U f → f < n ∧ f < n') {p p' : List (PathElement F)} (h : PathAgree U p p')
    {depth : Nat} (hp : OnPath U p (depth + 1)) {value : F} : ∀ (k i : Nat) (c c' : List D), 1 ≤ i →
    i + k ≤ depth + 1 → Agreed U n n' c c' →
    Res.Imp (Agreed U n n') (leafContribs p depth value k i c) (leafContribs p' depth value k i c')
  | 0, _, _, _, _, _, hc => .ok hc
  | k + 1, i, c, c', h1, h2, hc => by
    rw [leafContribs, leafContribs]
    refine (unwoundPathSum_agree h).bind fun w w' _ _ e => ?_
    subst e
    have hl := hp.len
    have hl' : i < p'.length := by rw [← h.length_eq]; omega
    rw [getEl_lt (by omega : i < p.length), getEl_lt hl', Res.ok_bind, Res.ok_bind]
    dsimp only
    have he : ElAgree U p[i] p'[i] := List.Forall₂.get h (by omega) hl'
    obtain ⟨f, hf1, hf2⟩ := hp.used i h1 (by omega)
    rw [List.getElem?_map, List.getElem?_eq_getElem (show i < p.length by omega)] at hf1
    have hf1 : p[i].feature = f := Option.some.inj hf1
    rw [(he.feature f hf2).2 hf1, he.one, he.zero, hf1]
    exact (hc.addAt hU hf2 _).bind fun a b _ _ hab =>
      leafContribs_agreed hU h hp k (i + 1) a b (by omega) (by omega) hab

theorem findOnPath_le {p : List (PathElement F)} {depth feature : Nat} : ∀ (k i j : Nat),
    findOnPath p depth feature k i = .ok j → i ≤ depth + 1 → j ≤ depth + 1
  | 0, i, j, h, hi => by cases h; exact hi
  | k + 1, i, j, h, hi => by
    rw [findOnPath] at h
    split at h
    · obtain ⟨e, _, h⟩ := Res.bind_eq_ok.1 h
      split at h
      · cases h; exact hi
      · exact findOnPath_le k (i + 1) j h (by omega)
    · cases h; exact hi

theorem treeShap_agreed (hU : ∀ f, U f → f < n ∧ f < n') {nodes : List (Node F D)}
    (hn : ∀ m ∈ nodes, m.isLeaf = false → U m.splitFeature) {row row' : List D} (hr : RowsAgree U n n' row row')
    {missing : D} : ∀ (fuel i depth : Nat) (p p' : List (PathElement F)) (pz po : F) (pf pf' : Nat) (c c' : List D),
    PathAgree U p p' → OnPath U p depth → (depth = 0 ∨ U pf) → (∀ f, U f → (pf' = f ↔ pf = f)) →
    Agreed U n n' c c' → Res.Imp (Agreed U n n') (treeShap nodes row missing fuel i depth p pz po pf c)
      (treeShap nodes row' missing fuel i depth p' pz po pf' c')
  | 0, _, _, _, _, _, _, _, _, _, _, _, _, _, _, _ => .diverge
  | fuel + 1, i, depth, p, p', pz, po, pf, pf', c, c', hp, ho, hd, hpf, hc => by
    rw [treeShap, treeShap]
    refine (Res.Imp.same _).bind fun node node' hnode _ e => ?_
    subst e
    have hmem := List.mem_of_getElem? (idx_eq_ok.1 hnode)
    refine (extendPath_agree hpf hp).bind fun q q' hq _ hqq => ?_
    have hoq := ho.extend hd hq
    by_cases hl : node.isLeaf = true
    · rw [if_pos hl, if_pos hl]
      exact leafContribs_agreed hU hqq hoq depth 1 c c' (le_refl _) (by omega) hc
    · rw [if_neg hl, if_neg hl]
      have hu := hn _ hmem (by simpa using hl)
      have e : idx row' node.splitFeature = idx row node.splitFeature := by rw [idx, idx, hr.used _ hu]
      rw [e]
      refine (Res.Imp.same _).bind fun v v' _ _ e => ?_
      subst e
      refine (Res.Imp.same _).bind fun ch ch' _ _ e => ?_
      subst e
      dsimp only
      refine (findOnPath_agree hu hqq _ _).bind fun k k' hk _ e => ?_
      subst e
      have key : ∀ (iz io : F) (q q' : List (PathElement F)) (d : Nat), PathAgree U q q' → OnPath U q (d + 1) →
          Res.Imp (Agreed U n n')
            (Res.foldM' (fun (contribs : List D) (ci : Nat × Nat) => do
              let c ← idx nodes ci.1
              let z := (c.hessianSum / node.hessianSum) * iz
              let o := if ci.2 = 0 then io else 0
              treeShap nodes row missing fuel ci.1 (d + 1) q z o node.splitFeature contribs)
              c (hotColdChildren ch node).zipIdx)
            (Res.foldM' (fun (contribs : List D) (ci : Nat × Nat) => do
              let c ← idx nodes ci.1
              let z := (c.hessianSum / node.hessianSum) * iz
              let o := if ci.2 = 0 then io else 0
              treeShap nodes row' missing fuel ci.1 (d + 1) q' z o node.splitFeature contribs)
              c' (hotColdChildren ch node).zipIdx) := by
        intro iz io q q' d hq hoq
        refine Res.Imp.foldM' (fun ci _ x y hxy => ?_) c c' hc
        refine (Res.Imp.same _).bind fun nd nd' _ _ e => ?_
        subst e
        exact treeShap_agreed hU hn hr fuel ci.1 (d + 1) q q' _ _ _ _ x y hq hoq (Or.inr hu) (fun _ _ => Iff.rfl) hxy
      by_cases hkd : k ≠ depth + 1
      · rw [if_pos hkd, if_pos hkd]
        have hle := findOnPath_le _ _ _ hk (by omega)
        have hlen : k < q.length := by have := hoq.len; omega
        have hlen' : k < q'.length := by rw [← hqq.length_eq]; exact hlen
        rw [getEl_lt hlen, getEl_lt hlen', Res.ok_bind, Res.ok_bind]
        have he : ElAgree U q[k] q'[k] := List.Forall₂.get hqq hlen hlen'
        dsimp only
        rw [he.zero, he.one]
        refine (unwindPath_agree hqq).bind fun r r' hr _ hrr => ?_
        exact key _ _ r r' (depth - 1) hrr (hoq.unwind (by omega) hr)
      · rw [if_neg hkd, if_neg hkd]
        exact key 1 1 q q' depth hqq hoq

end

end Verif

import Verif.Props.C40
import Verif.Spec.EojeolTagger
import Mathlib.Tactic.NormNum
import Mathlib.Tactic.Ring
import Mathlib.Tactic.Linarith
import Mathlib.Tactic.ByContra
import Mathlib.Algebra.Order.Field.Rat
/-! C87: what the eojeol tagger chooses with its default weights and templates. -/
set_option linter.unusedSimpArgs false
set_option linter.unusedVariables false
namespace Props
open Py PT Spec.EojeolTagger

/-! ### compounds -/

/-- from position `b`, with `acc` found -/
private theorem findWord_none (d : State) (tag token : Str) (b : Nat) (i fuel : Nat) (h : findWord d tag token b i fuel = none) :
    ∀ j, i ≤ j → j < i + fuel → ¬ (b = 0 ∧ j = token.length) → (∀ k, i ≤ k → k < j → ¬ (b = 0 ∧ k = token.length)) → d.wordIsTag (slice token b j) tag = false := by
  induction fuel generalizing i with
  | zero => intro j h1 h2; omega
  | succ fuel ih =>
    intro j h1 h2 h3 h4
    rw [findWord] at h
    split at h
    · rename_i h0
      by_cases e : j = i
      · subst e; exact absurd h0 h3
      · exact absurd h0 (h4 i (Nat.le_refl _) (by omega))
    · split at h
      · cases h
      · rename_i hw
        by_cases e : j = i
        · subst e; simpa using hw
        · exact ih (i + 1) h j (by omega) (by omega) h3 (fun k hk1 hk2 => h4 k (by omega) hk2)

private theorem findWord_some (d : State) (tag token : Str) (b : Nat) (i fuel j : Nat) (h : findWord d tag token b i fuel = some j) :
    i ≤ j ∧ j < i + fuel ∧ d.wordIsTag (slice token b j) tag = true ∧ ¬ (b = 0 ∧ j = token.length) ∧
    (∀ k, i ≤ k → k < j → d.wordIsTag (slice token b k) tag = false) := by
  induction fuel generalizing i with
  | zero => cases h
  | succ fuel ih =>
    rw [findWord] at h
    split at h
    · cases h
    · rename_i h0
      split at h
      · rename_i hw; cases h; exact ⟨Nat.le_refl _, by omega, hw, h0, fun k h1 h2 => by omega⟩
      · rename_i hw
        obtain ⟨h1, h2, h3, h4, h5⟩ := ih (i + 1) h
        refine ⟨by omega, by omega, h3, h4, ?_⟩
        intro k hk1 hk2
        by_cases e : k = i
        · rw [e]; simpa using hw
        · exact h5 k (by omega) hk2

private theorem slice_drop (t : Str) (b i : Nat) : slice t b i = (t.drop b).take (i - b) := List.drop_take

private theorem prefix_take {w t : Str} (h : w <+: t) : w = t.take w.length := by
  obtain ⟨s, rfl⟩ := h; simp

/-- two cuts of the same text agree -/
private theorem shortest_unique {P : Str → Prop} {t w v : Str} (h : ShortestWord P t w) (h' : ShortestWord P t v) : w = v := by
  have e : w.length = v.length := Nat.le_antisymm (h.2.2.2 v h'.1 h'.2.1 h'.2.2.1) (h'.2.2.2 w h.1 h.2.1 h.2.2.1)
  rw [prefix_take h.2.1, prefix_take h'.2.1, e]

private theorem chain_unique {P : Str → Prop} {t : Str} {ws vs : List Str} (h : Chain P t ws) (h' : Chain P t vs) : ws = vs := by
  induction h generalizing vs with
  | nil =>
    generalize he : ([] : Str) = t0 at h'
    cases h' with
    | nil => rfl
    | cons hw _ => have := hw.1; simp_all
  | @cons w rest ws hw _ ih =>
    generalize he : w ++ rest = t0 at h'
    cases h' with
    | nil => have := hw.1; simp_all
    | @cons v rest' vs hv hr =>
      rw [he] at hw
      obtain rfl := shortest_unique hw hv
      rw [List.append_cancel_left_eq] at he
      subst he
      rw [ih hr]

/-- the words of a decomposition, as a chain; the decomposition is found whenever there is one (except the trivial one) -/
private theorem decomposeGo_chain (d : State) (tag token : Str) (htok : 0 < token.length) : ∀ (fuel b : Nat) (acc : List LR), b ≤ token.length → token.length < b + fuel →
    (∀ ws, Chain (fun w => d.wordIsTag w tag = true) (token.drop b) ws → (b = 0 → 2 ≤ ws.length) →
      (decomposeGo d tag token fuel b acc).map (fun x => (x.l, x.lTag, x.r)) = acc.map (fun x => (x.l, x.lTag, x.r)) ++ ws.map (fun w => (w, some tag, []))) ∧
    ((∀ ws, Chain (fun w => d.wordIsTag w tag = true) (token.drop b) ws → ¬ (b = 0 → 2 ≤ ws.length)) → decomposeGo d tag token fuel b acc = []) := by
  intro fuel
  induction fuel with
  | zero => intro b acc h1 h2; omega
  | succ fuel ih =>
    intro b acc hb hf
    rw [decomposeGo]
    by_cases hlt : b < token.length
    · rw [if_pos hlt]
      cases hfw : findWord d tag token b (b + 1) (token.length - b) with
      | none =>
        dsimp only
        have hn := findWord_none d tag token b _ _ hfw
        refine ⟨?_, fun _ => rfl⟩
        intro ws hc h2
        exfalso
        generalize ht : token.drop b = t at hc
        cases hc with
        | nil => rw [List.drop_eq_nil_iff] at ht; omega
        | @cons w rest ws hw hr =>
          have hl : 0 < w.length := List.length_pos_iff.2 hw.1
          have hlen : token.length - b = w.length + rest.length := by rw [← List.length_drop, ht, List.length_append]
          have hsl : slice token b (b + w.length) = w := by
            rw [slice_drop, ht, show b + w.length - b = w.length by omega]; simp
          have hrest : b = 0 → rest ≠ [] := by
            intro e0 er
            subst er
            have := h2 e0
            generalize hnil : ([] : Str) = nl at hr
            cases hr with
            | nil => simp at this
            | cons hv _ => have := hv.1; simp_all
          have hrl : b = 0 → 0 < rest.length := fun e0 => List.length_pos_iff.2 (hrest e0)
          have := hn (b + w.length) (by omega) (by omega) (by rintro ⟨e0, e1⟩; have := hrl e0; omega)
            (by rintro k hk1 hk2 ⟨e0, e1⟩; have := hrl e0; omega)
          rw [hsl] at this
          have hd := hw.2.2.1
          dsimp only at hd
          rw [hd] at this
          cases this
      | some i =>
        dsimp only
        obtain ⟨h1, h2, h3, h4, h5⟩ := findWord_some d tag token b _ _ i hfw
        have hsplit : token.drop b = slice token b i ++ token.drop i := by
          have : slice token b i = (token.drop b).take (i - b) := slice_drop ..
          rw [this]
          have hdd : token.drop i = (token.drop b).drop (i - b) := by rw [List.drop_drop]; congr 1; omega
          rw [hdd, List.take_append_drop]
        have hsl : (slice token b i).length = i - b := by rw [slice_drop, List.length_take, List.length_drop]; omega
        have hshort : ShortestWord (fun w => d.wordIsTag w tag = true) (token.drop b) (slice token b i) := by
          refine ⟨?_, ⟨_, hsplit.symm⟩, h3, ?_⟩
          · intro e; rw [e] at hsl; simp at hsl; omega
          · intro v hv hp hd
            by_contra hlt'
            have hvl : 0 < v.length := List.length_pos_iff.2 hv
            have hv' := prefix_take hp
            have : slice token b (b + v.length) = v := by
              rw [slice_drop, show b + v.length - b = v.length by omega, ← hv']
            have h6 := h5 (b + v.length) (by omega) (by omega)
            rw [this] at h6
            rw [hd] at h6
            cases h6
        obtain ⟨ih1, ih2⟩ := ih i (acc ++ [⟨slice token b i, some tag, [], none, b, i, i⟩]) (by omega) (by omega)
        constructor
        · intro ws hc hlen
          generalize ht : token.drop b = t at hc
          cases hc with
          | nil => rw [List.drop_eq_nil_iff] at ht; omega
          | @cons w rest ws hw hr =>
            rw [← ht] at hw
            obtain rfl := shortest_unique hw hshort
            rw [hsplit, List.append_cancel_left_eq] at ht
            subst ht
            rw [ih1 ws hr (fun e => by omega)]
            simp
        · intro hno
          apply ih2
          intro ws hc hi
          refine hno (slice token b i :: ws) ?_ ?_
          · rw [hsplit]; rw [hsplit] at hshort; exact .cons hshort hc
          · intro e0
            cases hc' : ws with
            | nil =>
              subst hc'
              exfalso
              generalize ht : token.drop i = t at hc
              cases hc
              rw [List.drop_eq_nil_iff] at ht
              exact h4 ⟨e0, by omega⟩
            | cons v vs => simp
    · rw [if_neg hlt]
      have hd : token.drop b = [] := List.drop_eq_nil_iff.2 (by omega)
      constructor
      · intro ws hc _
        rw [hd] at hc
        obtain rfl := chain_unique hc .nil
        simp
      · intro hno
        rw [hd] at hno
        have := hno [] .nil
        by_cases e : b = 0
        · omega
        · exact absurd (fun h => absurd h e) this

private theorem decompose_chain (d : State) (tag token : Str) (htok : token ≠ []) :
    (∀ ws, Compound (fun w => d.wordIsTag w tag = true) token ws →
      (decomposeCompound d token tag).map (fun x => (x.l, x.lTag, x.r)) = ws.map (fun w => (w, some tag, []))) ∧
    ((∀ ws, ¬ Compound (fun w => d.wordIsTag w tag = true) token ws) → decomposeCompound d token tag = []) := by
  obtain ⟨h1, h2⟩ := decomposeGo_chain d tag token (List.length_pos_iff.2 htok) (token.length + 1) 0 [] (Nat.zero_le _) (by omega)
  constructor
  · intro ws h; unfold decomposeCompound; simpa using h1 ws h.1 (fun _ => h.2)
  · intro h; exact h2 (fun ws hc hl => h ws ⟨hc, hl rfl⟩)

/-! ### selection -/

private theorem select_first {α : Type} (score : α → Rat) (cands before after : List α) (c : α) (h : cands = before ++ c :: after)
    (h1 : ∀ x ∈ before, score x < score c) (h2 : ∀ x ∈ after, score x ≤ score c) : selectBest score cands = some c := by
  cases hs : selectBest score cands with
  | none => rw [(C40_select_best score cands).1.1 hs] at h; simp at h
  | some c' =>
    obtain ⟨b', a', h', h1', h2'⟩ := (C40_select_best score cands).2 c' hs
    rw [h] at h'
    rcases List.append_eq_append_iff.1 h' with ⟨zs, e1, e2⟩ | ⟨zs, e1, e2⟩
    · cases zs with
      | nil => simp only [List.nil_append, List.cons.injEq] at e2; rw [e2.1]
      | cons z zs =>
        rw [List.cons_append, List.cons.injEq] at e2
        have ha := h1' c (by rw [e1, e2.1]; simp)
        have hb := h2 c' (by rw [e2.2]; simp)
        exact absurd ha (by linarith)
    · cases zs with
      | nil => simp only [List.nil_append, List.cons.injEq] at e2; rw [e2.1]
      | cons z zs =>
        rw [List.cons_append, List.cons.injEq] at e2
        have ha := h1 c' (by rw [e1, e2.1]; simp)
        have hb := h2' c (by rw [e2.2]; simp)
        exact absurd ha (by linarith)

/-! ### the default scores -/

private theorem score_one (w : LR) : evaluateEojeol {} [w] =
    (if w.lTag = some noun then -1/10 + 2/10 + (if w.r = [] then 2/10 else 0) + (if w.rTag = some josa then 1/10 else 0) else 0) - 15/100 -
      (if w.lTag = none then 3/10 else 0) := by
  unfold evaluateEojeol countTag b2r
  by_cases h1 : w.lTag = some noun <;> by_cases h2 : w.r = [] <;> by_cases h3 : w.rTag = some josa <;> by_cases h4 : w.lTag = none <;>
    simp_all [noun, josa] <;> norm_num

private theorem countTag_all (c : List LR) (t : Option Str) (h : ∀ w ∈ c, w.lTag = t) : countTag c t = c.length := by
  unfold countTag
  rw [List.countP_eq_length]
  intro w hw; simpa using h w hw

private theorem countTag_zero (c : List LR) (t u : Option Str) (h : ∀ w ∈ c, w.lTag = t) (hn : t ≠ u) : countTag c u = 0 := by
  unfold countTag
  rw [List.countP_eq_zero]
  intro w hw; rw [h w hw]; simpa using hn

private theorem score_nouns (c : List LR) (h : ∀ w ∈ c, w.lTag = some noun) (hl : 2 ≤ c.length) :
    evaluateEojeol {} c = 15/100 - 25/100 * (c.length : Rat) := by
  have h1 : countTag c (some "Noun".toList) = c.length := countTag_all c _ h
  have h2 : countTag c (some "Adverb".toList) = 0 := countTag_zero c _ _ h (by decide)
  have h3 : countTag c none = 0 := countTag_zero c _ _ h (by decide)
  unfold evaluateEojeol b2r
  dsimp only
  rw [h1, h2, h3]
  match c, hl with
  | a :: b :: c, hl =>
    simp only [List.length_cons]
    push_cast
    norm_num
    ring

private theorem score_adverbs (c : List LR) (h : ∀ w ∈ c, w.lTag = some adverb) (hl : 2 ≤ c.length) :
    evaluateEojeol {} c = 10/100 - 15/100 * (c.length : Rat) := by
  have h1 : countTag c (some "Noun".toList) = 0 := countTag_zero c _ _ h (by decide)
  have h2 : countTag c (some "Adverb".toList) = c.length := countTag_all c _ h
  have h3 : countTag c none = 0 := countTag_zero c _ _ h (by decide)
  unfold evaluateEojeol b2r
  dsimp only
  rw [h1, h2, h3]
  match c, hl with
  | a :: b :: c, hl =>
    simp only [List.length_cons]
    push_cast
    norm_num
    ring

/-! ### the candidates with the default templates -/

/-- what the dictionary says -/
def HasTag (s : State) (tag word : Str) : Prop := s.wordIsTag word tag = true

private abbrev triple (x : LR) : Str × Option Str × Str := (x.l, x.lTag, x.r)

private abbrev whole (e : Str) (t : Option Str) : LR := ⟨e, t, [], none, 0, e.length, e.length⟩
private abbrev pair (e l r t : Str) : LR := ⟨l, some noun, r, some t, 0, l.length, e.length⟩

private theorem single_mem (t : Str) : t ∈ ["Noun".toList, "Verb".toList, "Adjective".toList, "Adverb".toList, "Exclamation".toList] ↔ Single t := by
  unfold Single noun verb adjective adverb exclamation
  simp only [List.mem_cons, List.not_mem_nil, or_false]

private inductive Cand (s : State) (e : Str) : List LR → Prop
  | single (t : Str) (hs : Single t) (hd : HasTag s t e) : Cand s e [whole e (some t)]
  | unknown (h : ∀ t, Single t → ¬ HasTag s t e) : Cand s e [whole e none]
  | pair (l r t : Str) (ht : t = verb ∨ t = adjective ∨ t = josa) (h : Split (HasTag s) e l r noun t) : Cand s e [pair e l r t]
  | nouns (ws : List Str) (c : List LR) (h : Compound (HasTag s noun) e ws) (hc : c.map triple = ws.map (fun w => (w, some noun, []))) : Cand s e c
  | adverbs (ws : List Str) (c : List LR) (h : Compound (HasTag s adverb) e ws) (hc : c.map triple = ws.map (fun w => (w, some adverb, []))) : Cand s e c

private theorem singles_eq (s : State) (e : Str) :
    singles { dictionary := s } e =
      (let c := ((s.getPos e).filter (fun t => decide (t ∈ ["Noun".toList, "Verb".toList, "Adjective".toList, "Adverb".toList, "Exclamation".toList]))).map (fun t => [whole e (some t)])
       if c = [] then [[whole e none]] else c) := rfl

private theorem compound_cand (s : State) (tag e : Str) (he : e ≠ []) (h : decomposeCompound s e tag ≠ []) :
    ∃ ws, Compound (HasTag s tag) e ws ∧ (decomposeCompound s e tag).map triple = ws.map (fun w => (w, some tag, [])) := by
  obtain ⟨h1, h2⟩ := decompose_chain s tag e he
  by_cases hx : ∃ ws, Compound (HasTag s tag) e ws
  · obtain ⟨ws, hw⟩ := hx
    exact ⟨ws, hw, h1 ws hw⟩
  · exact absurd (h2 (fun ws hw => hx ⟨ws, hw⟩)) h

private theorem cand_of_mem (s : State) (hd : DReach s) (e : Str) (he : e ≠ []) (x : List LR)
    (h : x ∈ EojeolMatcher.generate { dictionary := s } e) : Cand s e x := by
  unfold EojeolMatcher.generate at h
  dsimp only at h
  rcases List.mem_append.1 h with h | h
  · rcases List.mem_append.1 h with h | h
    · rcases List.mem_append.1 h with h | h
      · rw [singles_eq] at h
        dsimp only at h
        split at h
        · rename_i hn
          rw [List.mem_singleton] at h
          subst h
          refine .unknown (fun t hs hd' => ?_)
          rw [List.map_eq_nil_iff, List.filter_eq_nil_iff] at hn
          exact hn t ((C38_get_pos s hd e t).2.2 hd') (by rw [decide_eq_true_iff]; exact (single_mem t).2 hs)
        · obtain ⟨t, ht, rfl⟩ := List.mem_map.1 h
          obtain ⟨ht1, ht2⟩ := List.mem_filter.1 ht
          rw [decide_eq_true_iff] at ht2
          exact .single t ((single_mem t).1 ht2) ((C38_get_pos s hd e t).2.1 ht1)
      · unfold pairs at h
        obtain ⟨b, hb, h⟩ := List.mem_flatMap.1 h
        obtain ⟨t, ht, rfl⟩ := List.mem_map.1 h
        obtain ⟨ht1, ht2⟩ := List.mem_filter.1 ht
        rw [Bool.and_eq_true] at ht2
        have hb' := List.mem_range.1 hb
        have hl : (e.take (b + 1)).length = b + 1 := by rw [List.length_take]; omega
        have hsplit : ∀ rt, t = (noun, rt) → (rt = verb ∨ rt = adjective ∨ rt = josa) →
            Cand s e [(⟨e.take (b + 1), some t.1, e.drop (b + 1), some t.2, 0, b + 1, e.length⟩ : LR)] := by
          intro rt hrt hor
          subst hrt
          have := Cand.pair (s := s) (e := e) (e.take (b + 1)) (e.drop (b + 1)) rt hor
            ⟨(List.take_append_drop _ _).symm, by intro h0; rw [h0] at hl; simp at hl, by
              intro h0; rw [List.drop_eq_nil_iff] at h0; omega, ht2.1, ht2.2⟩
          rw [Props.pair, hl] at this
          exact this
        have : t = (noun, verb) ∨ t = (noun, adjective) ∨ t = (noun, josa) := by
          simpa only [List.mem_cons, List.not_mem_nil, or_false] using ht1
        rcases this with h | h | h
        · exact hsplit verb h (Or.inl rfl)
        · exact hsplit adjective h (Or.inr (Or.inl rfl))
        · exact hsplit josa h (Or.inr (Or.inr rfl))
    · split at h
      · cases h
      · rename_i hne
        rw [List.mem_singleton] at h
        subst h
        obtain ⟨ws, h1, h2⟩ := compound_cand s _ e he hne
        exact .nouns ws _ h1 h2
  · split at h
    · cases h
    · rename_i hne
      rw [List.mem_singleton] at h
      subst h
      obtain ⟨ws, h1, h2⟩ := compound_cand s _ e he hne
      exact .adverbs ws _ h1 h2

private def Before (e : Str) (x y : List LR) : Prop := ∀ l r t l' r' t', x = [pair e l r t] → y = [pair e l' r' t'] →
  l.length < l'.length ∨ (l.length = l'.length ∧ (t' = verb → t = verb))

private theorem whole_ne_pair (e : Str) (t : Option Str) (l r t' : Str) : [whole e t] ≠ [pair e l r t'] := by
  intro h; injection h with h; injection h with _ _ _ h; cases h

private theorem compound_ne_pair (s : State) (tag e : Str) (he : e ≠ []) (c : List LR) (hc : c ∈ (if decomposeCompound s e tag = [] then [] else [decomposeCompound s e tag]))
    (e' l r t : Str) : c ≠ [pair e' l r t] := by
  split at hc
  · cases hc
  · rename_i hne
    rw [List.mem_singleton] at hc
    subst hc
    obtain ⟨ws, h1, h2⟩ := compound_cand s _ e he hne
    intro h
    rw [h] at h2
    have := congrArg List.length h2
    have := h1.2
    simp at *
    omega

private theorem single_ne_pair (s : State) (e : Str) (c : List LR) (hc : c ∈ singles { dictionary := s } e) (e' l r t : Str) : c ≠ [pair e' l r t] := by
  rw [singles_eq] at hc
  dsimp only at hc
  split at hc
  · rw [List.mem_singleton] at hc; subst hc; intro h; injection h with h; injection h with _ _ _ h; cases h
  · obtain ⟨u, _, rfl⟩ := List.mem_map.1 hc
    intro h; injection h with h; injection h with _ _ _ h; cases h

private theorem generate_before (s : State) (e : Str) (he : e ≠ []) : (EojeolMatcher.generate { dictionary := s } e).Pairwise (Before e) := by
  unfold EojeolMatcher.generate
  dsimp only
  have hpair : (pairs { dictionary := s } e).Pairwise (Before e) := by
    unfold pairs
    rw [List.pairwise_flatMap]
    constructor
    · intro b hb
      have hb' := List.mem_range.1 hb
      rw [List.pairwise_map]
      apply List.Pairwise.sublist List.filter_sublist
      have key : ∀ a b' : Str × Str, (b'.2 = verb → a.2 = verb) → Before e
          [(⟨e.take (b + 1), some a.1, e.drop (b + 1), some a.2, 0, b + 1, e.length⟩ : LR)]
          [(⟨e.take (b + 1), some b'.1, e.drop (b + 1), some b'.2, 0, b + 1, e.length⟩ : LR)] := by
        intro a b' hv l r t l' r' t' h1 h2
        injection h1 with h1
        injection h2 with h2
        injection h1 with e1 e2 e3 e4 e5 e6
        injection h2 with f1 f2 f3 f4 f5 f6
        injection e4 with e4
        injection f4 with f4
        exact Or.inr ⟨by omega, by rw [← e4, ← f4]; exact hv⟩
      refine .cons ?_ (.cons ?_ (.cons ?_ .nil))
      · intro a ha; exact key _ _ (fun _ => rfl)
      · intro a ha
        rw [List.mem_singleton] at ha
        subst ha
        exact key _ _ (fun h => absurd h (by decide))
      · intro a ha; cases ha
    · apply List.Pairwise.imp _ List.pairwise_lt_range
      intro b b' hlt x hx y hy l r t l' r' t' h1 h2
      obtain ⟨u, _, rfl⟩ := List.mem_map.1 hx
      obtain ⟨v, _, rfl⟩ := List.mem_map.1 hy
      injection h1 with h1
      injection h2 with h2
      injection h1 with e1 e2 e3 e4 e5 e6
      injection h2 with f1 f2 f3 f4 f5 f6
      left; omega
  have htriv : ∀ l : List (List LR), (∀ c ∈ l, ∀ e' l r t, c ≠ [pair e' l r t]) → l.Pairwise (Before e) := by
    intro l hl
    rw [List.pairwise_iff_forall_sublist]
    intro a b hab l r t l' r' t' h1 _
    exact absurd h1 (hl a (hab.subset (by simp)) _ _ _ _)
  have hN := compound_ne_pair s "Noun".toList e he
  have hA := compound_ne_pair s "Adverb".toList e he
  have hS := single_ne_pair s e
  rw [List.pairwise_append, List.pairwise_append, List.pairwise_append]
  refine ⟨⟨⟨htriv _ hS, hpair, ?_⟩, htriv _ hN, ?_⟩, htriv _ hA, ?_⟩
  · intro x hx y _ l r t l' r' t' h1 _; exact absurd h1 (hS x hx _ _ _ _)
  · intro x hx y hy l r t l' r' t' _ h2; exact absurd h2 (hN y hy _ _ _ _)
  · intro x hx y hy l r t l' r' t' _ h2; exact absurd h2 (hA y hy _ _ _ _)

private theorem lengths {c : List LR} {ws : List Str} {tag : Str} (hc : c.map triple = ws.map (fun w => (w, some tag, []))) :
    c.length = ws.length ∧ ∀ w ∈ c, w.lTag = some tag := by
  refine ⟨by simpa using congrArg List.length hc, ?_⟩
  intro w hw
  have : triple w ∈ ws.map (fun w => (w, some tag, ([] : Str))) := hc ▸ List.mem_map_of_mem hw
  obtain ⟨v, _, hv⟩ := List.mem_map.1 this
  exact (congrArg (fun x => x.2.1) hv).symm

private theorem score_whole (e t : Str) : evaluateEojeol {} [whole e (some t)] = if t = noun then 15/100 else -15/100 := by
  rw [score_one]
  by_cases h : t = noun
  · subst h; simp; norm_num
  · simp [h]; norm_num

private theorem score_unknown (e : Str) : evaluateEojeol {} [whole e none] = -45/100 := by
  rw [score_one]; simp; norm_num

private theorem score_pair (e l r t : Str) (hr : r ≠ []) : evaluateEojeol {} [pair e l r t] = if t = josa then 5/100 else -5/100 := by
  rw [score_one]
  by_cases h : t = josa
  · subst h; simp [hr]; norm_num
  · simp [hr, h]; norm_num

private theorem score_nouns' {c : List LR} {ws : List Str} (hc : c.map triple = ws.map (fun w => (w, some noun, []))) (h : 2 ≤ ws.length) :
    evaluateEojeol {} c = 15/100 - 25/100 * (ws.length : Rat) := by
  obtain ⟨h1, h2⟩ := lengths hc
  rw [score_nouns c h2 (by omega), h1]

private theorem score_adverbs' {c : List LR} {ws : List Str} (hc : c.map triple = ws.map (fun w => (w, some adverb, []))) (h : 2 ≤ ws.length) :
    evaluateEojeol {} c = 10/100 - 15/100 * (ws.length : Rat) := by
  obtain ⟨h1, h2⟩ := lengths hc
  rw [score_adverbs c h2 (by omega), h1]

private theorem mem_unknown (s : State) (hd : DReach s) (e : Str) (h : ∀ t, Single t → ¬ HasTag s t e) :
    [whole e none] ∈ EojeolMatcher.generate { dictionary := s } e := by
  unfold EojeolMatcher.generate
  dsimp only
  refine List.mem_append_left _ (List.mem_append_left _ (List.mem_append_left _ ?_))
  rw [singles_eq]
  dsimp only
  rw [if_pos]
  · simp
  · rw [List.map_eq_nil_iff, List.filter_eq_nil_iff]
    intro t ht hm
    rw [decide_eq_true_iff] at hm
    exact h t ((single_mem t).1 hm) ((C38_get_pos s hd e t).2.1 ht)

private theorem mem_single (s : State) (hd : DReach s) (e t : Str) (hs : Single t) (h : HasTag s t e) :
    [whole e (some t)] ∈ EojeolMatcher.generate { dictionary := s } e :=
  (C40_complete { dictionary := s } hd e).1 t ((single_mem t).2 hs) h

private theorem mem_pair (s : State) (hd : DReach s) (e l r t : Str) (ht : t = verb ∨ t = adjective ∨ t = josa) (h : Split (HasTag s) e l r noun t) :
    [pair e l r t] ∈ EojeolMatcher.generate { dictionary := s } e :=
  (C40_complete { dictionary := s } hd e).2 l r noun t h.2.1 h.2.2.1 h.1
    (by rcases ht with h | h | h <;> subst h <;> simp [noun, verb, adjective, josa]) h.2.2.2.1 h.2.2.2.2

private theorem decompose_of_compound (s : State) (tag e : Str) (ws : List Str) (h : Compound (HasTag s tag) e ws) :
    decomposeCompound s e tag ≠ [] ∧ (decomposeCompound s e tag).map triple = ws.map (fun w => (w, some tag, [])) := by
  have he : e ≠ [] := by
    rintro rfl
    have := chain_unique h.1 .nil
    subst this
    exact absurd h.2 (by simp)
  have := (decompose_chain s tag e he).1 ws h
  refine ⟨?_, this⟩
  intro h0
  rw [h0] at this
  have h2 := h.2
  have := congrArg List.length this
  simp at this
  omega

private theorem mem_nouns (s : State) (e : Str) (ws : List Str) (h : Compound (HasTag s noun) e ws) :
    ∃ c ∈ EojeolMatcher.generate { dictionary := s } e, c.map triple = ws.map (fun w => (w, some noun, [])) := by
  obtain ⟨h1, h2⟩ := decompose_of_compound s noun e ws h
  refine ⟨_, ?_, h2⟩
  unfold EojeolMatcher.generate
  dsimp only
  exact List.mem_append_left _ (List.mem_append_right _ (by rw [if_neg h1]; exact List.mem_singleton.2 rfl))

private theorem mem_adverbs (s : State) (e : Str) (ws : List Str) (h : Compound (HasTag s adverb) e ws) :
    ∃ c ∈ EojeolMatcher.generate { dictionary := s } e, c.map triple = ws.map (fun w => (w, some adverb, [])) := by
  obtain ⟨h1, h2⟩ := decompose_of_compound s adverb e ws h
  refine ⟨_, ?_, h2⟩
  unfold EojeolMatcher.generate
  dsimp only
  exact List.mem_append_right _ (by rw [if_neg h1]; exact List.mem_singleton.2 rfl)

private theorem flatten_triple (c : List LR) (ws : List Str) (tag : Str) (hne : ∀ w ∈ ws, w ≠ []) (hc : c.map triple = ws.map (fun w => (w, some tag, []))) :
    flattenWords c = ws.map (fun w => (w, some tag)) := by
  induction c generalizing ws with
  | nil => cases ws with
    | nil => rfl
    | cons => cases hc
  | cons x c ih =>
    cases ws with
    | nil => cases hc
    | cons w ws =>
      rw [List.map_cons, List.map_cons, List.cons.injEq] at hc
      have := ih ws (fun v hv => hne v (by simp [hv])) hc.2
      have h1 : x.l = w := congrArg (fun y => y.1) hc.1
      have h2 : x.lTag = some tag := congrArg (fun y => y.2.1) hc.1
      have h3 : x.r = [] := congrArg (fun y => y.2.2) hc.1
      unfold flattenWords at this ⊢
      rw [List.flatMap_cons, this, h1, h2, h3, if_neg (hne w (by simp))]
      simp

private theorem chain_ne {P : Str → Prop} {t : Str} {ws : List Str} (h : Chain P t ws) : ∀ w ∈ ws, w ≠ [] := by
  induction h with
  | nil => simp
  | cons hw _ ih => intro v hv; rcases List.mem_cons.1 hv with rfl | hv; exacts [hw.1, ih v hv]

private theorem flatten_pair (e l r t : Str) (hl : l ≠ []) (hr : r ≠ []) : flattenWords [pair e l r t] = [(l, some noun), (r, some t)] := by
  simp [flattenWords, hl, hr]

private theorem flatten_whole (e : Str) (t : Option Str) (he : e ≠ []) : flattenWords [whole e t] = [(e, t)] := by
  simp [flattenWords, he]

/-- the first candidate of an eojeol with a single tag -/
private theorem first_single (s : State) (hd : DReach s) (e t : Str) (hs : Single t) (h : HasTag s t e) :
    ∃ t0 pre post rest, Dict.keys s.pos = pre ++ t0 :: post ∧ (∀ u ∈ pre, Single u → ¬ HasTag s u e) ∧ Single t0 ∧ HasTag s t0 e ∧
      EojeolMatcher.generate { dictionary := s } e = [whole e (some t0)] :: rest := by
  have hL : (s.getPos e).filter (fun t => decide (t ∈ ["Noun".toList, "Verb".toList, "Adjective".toList, "Adverb".toList, "Exclamation".toList])) =
      (Dict.keys s.pos).filter (fun t => s.wordIsTag e t && decide (t ∈ ["Noun".toList, "Verb".toList, "Adjective".toList, "Adverb".toList, "Exclamation".toList])) := by
    unfold State.getPos State.wordIsTag Dict.keys
    rw [List.filter_map, List.filter_filter, List.filter_map]
    congr 1
    apply List.filter_congr
    intro x _
    simp only [Function.comp]
    rw [Bool.and_comm]
  cases hc : (Dict.keys s.pos).filter (fun t => s.wordIsTag e t && decide (t ∈ ["Noun".toList, "Verb".toList, "Adjective".toList, "Adverb".toList, "Exclamation".toList])) with
  | nil =>
    rw [hc, List.filter_eq_nil_iff] at hL
    exact absurd (by rw [decide_eq_true_iff]; exact (single_mem t).2 hs) (hL t ((C38_get_pos s hd e t).2.2 h))
  | cons t0 L =>
    rw [hc] at hL
    obtain ⟨pre, post, hk, hp, h0, _⟩ := List.filter_eq_cons_iff.1 hc
    rw [Bool.and_eq_true, decide_eq_true_iff] at h0
    refine ⟨t0, pre, post, L.map (fun t => [whole e (some t)]) ++ (pairs { dictionary := s } e ++
      ((if decomposeCompound s e noun = [] then [] else [decomposeCompound s e noun]) ++
       (if decomposeCompound s e adverb = [] then [] else [decomposeCompound s e adverb]))), hk, ?_, (single_mem t0).1 h0.2, h0.1, ?_⟩
    · intro u hu hsu hdu
      exact hp u hu (by rw [Bool.and_eq_true, decide_eq_true_iff]; exact ⟨hdu, (single_mem u).2 hsu⟩)
    · unfold EojeolMatcher.generate
      dsimp only
      rw [singles_eq, hL]
      dsimp only
      rw [if_neg (by simp)]
      simp only [List.map_cons, List.cons_append, List.append_assoc]

/-- the choice for one eojeol -/
private theorem choice (s : State) (hd : DReach s) (e : Str) (he : e ≠ []) (c : List LR)
    (hsel : selectBest (evaluateEojeol {}) (EojeolMatcher.generate { dictionary := s } e) = some c) :
    Choice (HasTag s) (Dict.keys s.pos) e (flattenWords c) := by
  obtain ⟨before, after, hdec, hb, ha⟩ := (C40_select_best _ _).2 c hsel
  have hmax : ∀ x ∈ EojeolMatcher.generate { dictionary := s } e, evaluateEojeol {} x ≤ evaluateEojeol {} c := by
    intro x hx
    rw [hdec] at hx
    rcases List.mem_append.1 hx with hx | hx
    · exact le_of_lt (hb x hx)
    · rcases List.mem_cons.1 hx with rfl | hx
      exacts [le_refl _, ha x hx]
  have mN : HasTag s noun e → (15/100 : Rat) ≤ evaluateEojeol {} c := fun h => by
    have := hmax _ (mem_single s hd e noun (Or.inl rfl) h); rwa [score_whole, if_pos rfl] at this
  have mS : ∀ t, Single t → HasTag s t e → (-15/100 : Rat) ≤ evaluateEojeol {} c := fun t hs h => by
    have := hmax _ (mem_single s hd e t hs h)
    rw [score_whole] at this
    split at this <;> linarith
  have mJ : ∀ l r, Split (HasTag s) e l r noun josa → (5/100 : Rat) ≤ evaluateEojeol {} c := fun l r h => by
    have := hmax _ (mem_pair s hd e l r josa (by simp) h); rwa [score_pair _ _ _ _ h.2.2.1, if_pos rfl] at this
  have mP : ∀ l r t, NounPred (HasTag s) e l r t → (-5/100 : Rat) ≤ evaluateEojeol {} c := fun l r t h => by
    have := hmax _ (mem_pair s hd e l r t (by rcases h.1 with h | h <;> simp [h]) h.2)
    rw [score_pair _ _ _ _ h.2.2.2.1] at this
    split at this <;> linarith
  have mU : (-45/100 : Rat) ≤ evaluateEojeol {} c := by
    by_cases h : ∃ t, Single t ∧ HasTag s t e
    · obtain ⟨t, h1, h2⟩ := h
      have := mS t h1 h2; linarith
    · have := hmax _ (mem_unknown s hd e (fun t h1 h2 => h ⟨t, h1, h2⟩))
      rwa [score_unknown] at this
  have mC : ∀ ws, Compound (HasTag s noun) e ws → 15/100 - 25/100 * (ws.length : Rat) ≤ evaluateEojeol {} c := fun ws h => by
    obtain ⟨x, hx, h1⟩ := mem_nouns s e ws h
    have := hmax x hx; rwa [score_nouns' h1 h.2] at this
  have mA : ∀ ws, Compound (HasTag s adverb) e ws → 10/100 - 15/100 * (ws.length : Rat) ≤ evaluateEojeol {} c := fun ws h => by
    obtain ⟨x, hx, h1⟩ := mem_adverbs s e ws h
    have := hmax x hx; rwa [score_adverbs' h1 h.2] at this
  have hord := generate_before s e he
  rw [hdec, List.pairwise_append, List.pairwise_cons] at hord
  have hafter : ∀ x ∈ EojeolMatcher.generate { dictionary := s } e, evaluateEojeol {} x = evaluateEojeol {} c → x = c ∨ x ∈ after := by
    intro x hx heq
    rw [hdec] at hx
    rcases List.mem_append.1 hx with hx | hx
    · exact absurd (hb x hx) (by rw [heq]; exact lt_irrefl _)
    · exact List.mem_cons.1 hx
  cases cand_of_mem s hd e he c (by rw [hdec]; simp) with
  | single t hs hdt =>
    rw [flatten_whole e _ he]
    by_cases ht : t = noun
    · subst ht; exact .noun hdt
    · rw [score_whole, if_neg ht] at mN mJ mP hb
      have h1 : ¬ HasTag s noun e := fun h => by have := mN h; norm_num at this
      have h2 : ∀ l r, ¬ Split (HasTag s) e l r noun josa := fun l r h => by have := mJ l r h; norm_num at this
      have h3 : ∀ l r t, ¬ NounPred (HasTag s) e l r t := fun l r t h => by have := mP l r t h; norm_num at this
      obtain ⟨t0, pre, post, rest, hk, hp, hs0, hd0, hg⟩ := first_single s hd e t hs hdt
      have hbn : before = [] := by
        cases before with
        | nil => rfl
        | cons x before =>
          rw [hg, List.cons_append, List.cons.injEq] at hdec
          have h0 := hb x (by simp)
          rw [← hdec.1, score_whole, if_neg (fun (h : t0 = noun) => h1 (h ▸ hd0))] at h0
          exact absurd h0 (lt_irrefl _)
      rw [hbn, hg, List.nil_append, List.cons.injEq] at hdec
      have ht0 : t0 = t := by
        have := hdec.1
        injection this with this; injection this with _ this; injection this
      subst ht0
      exact .single t0 pre post h1 h2 h3 hk hp hs0 hd0
  | unknown hno =>
    rw [flatten_whole e _ he]
    rw [score_unknown] at mJ mP mC mA
    refine .unknown (fun l r h => by have := mJ l r h; norm_num at this) (fun l r t h => by have := mP l r t h; norm_num at this) hno
      (fun a b h => by have := mC _ h; norm_num at this) (fun ws h => ?_)
    have := mA ws h
    by_contra hlt
    have h3 : ws.length ≤ 3 := by omega
    have : (ws.length : Rat) ≤ 3 := by exact_mod_cast h3
    linarith
  | pair l r t ht h =>
    rw [flatten_pair e l r t h.2.1 h.2.2.1]
    by_cases hj : t = josa
    · subst hj
      rw [score_pair _ _ _ _ h.2.2.1, if_pos rfl] at mN
      refine .nounJosa l r (fun h => by have := mN h; norm_num at this) h ?_
      intro l' r' h'
      rcases hafter _ (mem_pair s hd e l' r' josa (by simp) h') (by rw [score_pair _ _ _ _ h.2.2.1, score_pair _ _ _ _ h'.2.2.1]) with h0 | h0
      · injection h0 with h0; injection h0 with h0; rw [h0]
      · rcases hord.2.1.1 _ h0 l r josa l' r' josa rfl rfl with h0 | h0
        · omega
        · omega
    · have ht' : t = verb ∨ t = adjective := by
        rcases ht with h | h | h
        exacts [Or.inl h, Or.inr h, absurd h hj]
      rw [score_pair _ _ _ _ h.2.2.1, if_neg hj] at mN mJ
      have hj' : ∀ t', t' = verb ∨ t' = adjective → ¬ t' = josa := by
        rintro t' (h | h) <;> subst h <;> decide
      refine .nounPred l r t (fun h => by have := mN h; norm_num at this) (fun l r h => by have := mJ l r h; norm_num at this) ⟨ht', h⟩ ?_ ?_
      · intro l' r' t' h'
        rcases hafter _ (mem_pair s hd e l' r' t' (by rcases h'.1 with h | h <;> simp [h]) h'.2) (by
          rw [score_pair _ _ _ _ h.2.2.1, score_pair _ _ _ _ h'.2.2.2.1, if_neg hj, if_neg (hj' t' h'.1)]) with h0 | h0
        · injection h0 with h0; injection h0 with h0; rw [h0]
        · rcases hord.2.1.1 _ h0 l r t l' r' t' rfl rfl with h0 | h0
          · omega
          · omega
      · intro hta hv
        subst hta
        have h' : Split (HasTag s) e l r noun verb := ⟨h.1, h.2.1, h.2.2.1, h.2.2.2.1, hv⟩
        rcases hafter _ (mem_pair s hd e l r verb (by simp) h') (by
          rw [score_pair _ _ _ _ h.2.2.1, score_pair _ _ _ _ h.2.2.1, if_neg hj, if_neg (by decide)]) with h0 | h0
        · injection h0 with h0; injection h0 with _ _ _ h0; injection h0 with h0; exact absurd h0 (by decide)
        · rcases hord.2.1.1 _ h0 l r adjective l r verb rfl rfl with h0 | h0
          · omega
          · exact absurd (h0.2 rfl) (by decide)
  | nouns ws c h hc =>
    rw [flatten_triple c ws noun (chain_ne h.1) hc]
    rw [score_nouns' hc h.2] at mN mS mJ mP mU mA
    have h2 := h.2
    have hlt : ws.length = 2 := by
      by_contra h0
      have h3 : 3 ≤ ws.length := by omega
      have : (3 : Rat) ≤ (ws.length : Rat) := by exact_mod_cast h3
      linarith
    rw [hlt] at mN mS mJ mP mU mA
    match ws, hlt with
    | [a, b], _ =>
      exact .twoNouns a b (fun l r h => by have := mJ l r h; norm_num at this) (fun l r t h => by have := mP l r t h; norm_num at this)
        (fun t hs h => by have := mS t hs h; norm_num at this) (fun a b h => by have := mA _ h; norm_num at this) h
  | adverbs ws c h hc =>
    rw [flatten_triple c ws adverb (chain_ne h.1) hc]
    have hsc := score_adverbs' hc h.2
    rw [hsc] at mN mS mJ mP mU mC
    have h2 := h.2
    have hlt : ws.length < 4 := by
      by_contra h0
      have h3 : 4 ≤ ws.length := by omega
      have : (4 : Rat) ≤ (ws.length : Rat) := by exact_mod_cast h3
      linarith
    rcases (by omega : ws.length = 2 ∨ ws.length = 3) with hlt | hlt <;> rw [hlt] at mN mS mJ mP mU mC
    · match ws, hlt with
      | [a, b], _ =>
        exact .twoAdverbs a b (fun l r h => by have := mJ l r h; norm_num at this) (fun l r t h => by have := mP l r t h; norm_num at this)
          (fun t hs h => by have := mS t hs h; norm_num at this) h
    · match ws, hlt with
      | [a, b, d], _ =>
        refine .threeAdverbs a b d (fun l r h => by have := mJ l r h; norm_num at this) (fun l r t h => by have := mP l r t h; norm_num at this)
          (fun t hs h => by have := mS t hs h; norm_num at this) (fun a' b' h' => ?_) h
        have hsn : ∀ x ∈ singles { dictionary := s } e ++ pairs { dictionary := s } e, x.length = 1 := by
          intro x hx
          rcases List.mem_append.1 hx with hx | hx
          · rw [singles_eq] at hx
            dsimp only at hx
            split at hx
            · rw [List.mem_singleton] at hx; rw [hx]; rfl
            · obtain ⟨u, _, rfl⟩ := List.mem_map.1 hx; rfl
          · obtain ⟨b, _, hx⟩ := List.mem_flatMap.1 hx
            obtain ⟨u, _, rfl⟩ := List.mem_map.1 hx
            rfl
        obtain ⟨hne1, hn1⟩ := decompose_of_compound s noun e _ h'
        obtain ⟨hne2, hn2⟩ := decompose_of_compound s adverb e _ h
        have hgen : EojeolMatcher.generate { dictionary := s } e =
            singles { dictionary := s } e ++ pairs { dictionary := s } e ++ [decomposeCompound s e noun] ++ [decomposeCompound s e adverb] := by
          unfold EojeolMatcher.generate
          dsimp only
          rw [if_neg hne1, if_neg hne2]
        have hcl := (lengths hc).1
        have hnc : decomposeCompound s e noun ≠ c := by
          intro h0
          have := congrArg List.length hn1
          rw [h0, List.length_map, hcl] at this
          simp at this
        have hmem : decomposeCompound s e noun ∈ before := by
          rw [hgen] at hdec
          rcases List.eq_nil_or_concat after with h0 | ⟨after', z, h0⟩
          · subst h0
            have := List.append_inj_left' hdec rfl
            rw [← this]; simp
          · rw [h0, List.concat_eq_append, ← List.cons_append, ← List.append_assoc] at hdec
            have := List.append_inj_left' hdec rfl
            have hin : c ∈ singles { dictionary := s } e ++ pairs { dictionary := s } e ++ [decomposeCompound s e noun] := by rw [this]; simp
            rcases List.mem_append.1 hin with hin | hin
            · have := hsn c hin; simp at hcl; omega
            · exact absurd (List.mem_singleton.1 hin).symm hnc
        have := hb _ hmem
        rw [score_nouns' hn1 h'.2, hsc] at this
        norm_num at this

private theorem mapM_all {α β : Type} (P : α → β → Prop) (f : α → PyM β) (l : List α) (h : ∀ a ∈ l, ∃ b, f a = .ok b ∧ P a b) :
    ∃ out, l.mapM f = .ok out ∧ List.Forall₂ P l out := by
  induction l with
  | nil => exact ⟨[], rfl, .nil⟩
  | cons a l ih =>
    obtain ⟨b, h1, h2⟩ := h a (by simp)
    obtain ⟨out, h3, h4⟩ := ih (fun x hx => h x (by simp [hx]))
    exact ⟨b :: out, by rw [List.mapM_cons, h1, h3]; rfl, .cons h2 h4⟩

/-- **C87** The tagger made of `EojeolTemplateMatcher(dictionary)` and `SimpleEojeolEvaluator()` — all defaults, with or without the postprocessor —
    chooses for every eojeol of every sentence exactly by the priority list of `Spec.EojeolTagger.Choice`. -/
theorem C87_default_choice (s : State) (hd : DReach s) (post : Option (Str → List LR → List LR))
    (hpost : post = none ∨ post = some postprocess) (sentence : Str) :
    ∃ out, tagSentence (fun e => selectBest (evaluateEojeol {}) (EojeolMatcher.generate { dictionary := s } e)) post sentence = .ok out ∧
      List.Forall₂ (Choice (HasTag s) (Dict.keys s.pos)) (splitWs sentence) out := by
  refine mapM_all _ _ _ ?_
  intro e hmem
  have he : e ≠ [] := splitWs_nonempty hmem
  unfold tagEojeol
  obtain ⟨hne, hall⟩ := C40_candidates { dictionary := s } hd e
  cases hb : selectBest (evaluateEojeol {}) (EojeolMatcher.generate { dictionary := s } e) with
  | none => exact absurd ((C40_select_best _ _).1.1 hb) hne
  | some c =>
    obtain ⟨before, after, hc, _, _⟩ := (C40_select_best _ _).2 c hb
    obtain ⟨_, hp, hcontig, hspell, _⟩ := hall c (by rw [hc]; simp)
    have heq : applyPost post e c = c := by
      rcases hpost with h | h <;> subst h
      · rfl
      · exact postprocess_contig s e c hp hcontig
    refine ⟨flattenWords c, by dsimp only; rw [hb]; dsimp only; rw [heq], ?_⟩
    exact choice s hd e he c hb

private theorem split_unique {D : Str → Str → Prop} {e l r l' r' lt rt lt' rt' : Str} {x y : Option Str} (h : Split D e l r lt rt) (h' : Split D e l' r' lt' rt')
    (hl : l.length = l'.length) : [(l, x), (r, y)] = [(l', x), (r', y)] := by
  obtain ⟨e1, e2⟩ := List.append_inj (h.1.symm.trans h'.1) hl
  rw [e1, e2]

private theorem pred_unique {D : Str → Str → Prop} {e l r t l' r' t' : Str} {x : Option Str} (h : NounPred D e l r t) (h' : NounPred D e l' r' t')
    (hl : l.length = l'.length) (hv : t = adjective → ¬ D verb r) (hv' : t' = adjective → ¬ D verb r') : [(l, x), (r, some t)] = [(l', x), (r', some t')] := by
  obtain ⟨e1, e2⟩ := List.append_inj (h.2.1.symm.trans h'.2.1) hl
  subst e1; subst e2
  have hd := h.2.2.2.2.2
  have hd' := h'.2.2.2.2.2
  rcases h.1 with h1 | h1 <;> rcases h'.1 with h2 | h2
  · rw [h1, h2]
  · exact absurd (h1 ▸ hd) (hv' h2)
  · exact absurd (h2 ▸ hd') (hv h1)
  · rw [h1, h2]

private theorem first_unique (P : Str → Prop) {pre post pre' post' : List Str} {t t' : Str} (h : pre ++ t :: post = pre' ++ t' :: post')
    (h1 : ∀ u ∈ pre, ¬ P u) (h2 : ∀ u ∈ pre', ¬ P u) (ht : P t) (ht' : P t') : t = t' := by
  rcases List.append_eq_append_iff.1 h with ⟨zs, e1, e2⟩ | ⟨zs, e1, e2⟩
  · cases zs with
    | nil => simp only [List.nil_append, List.cons.injEq] at e2; exact e2.1
    | cons z zs =>
      rw [List.cons_append, List.cons.injEq] at e2
      exact absurd ht (h2 t (by rw [e1, e2.1]; simp))
  · cases zs with
    | nil => simp only [List.nil_append, List.cons.injEq] at e2; exact e2.1.symm
    | cons z zs =>
      rw [List.cons_append, List.cons.injEq] at e2
      exact absurd ht' (h1 t' (by rw [e1, e2.1]; simp))

/-- **C87** The list decides: an eojeol has one choice only. -/
theorem C87_deterministic (D : Str → Str → Prop) (tags : List Str) (e : Str) (out out' : List (Str × Option Str))
    (h : Choice D tags e out) (h' : Choice D tags e out') : out = out' := by
  cases h with
  | noun h_ =>
    cases h' with
    | noun h' => exact rfl
    | nounJosa l' r' h1' h' hmin' => exact absurd h_ h1'
    | nounPred l' r' t' h1' h2' h' hmin' hverb' => exact absurd h_ h1'
    | single t' before' after' h1' h2' h3' ht' hb' hs' hd' => exact absurd h_ h1'
    | twoAdverbs a' b' h2' h3' h4' h' => exact absurd h_ (h4' _ (Or.inl rfl))
    | twoNouns a' b' h2' h3' h4' h5' h' => exact absurd h_ (h4' _ (Or.inl rfl))
    | threeAdverbs a' b' c' h2' h3' h4' h6' h' => exact absurd h_ (h4' _ (Or.inl rfl))
    | unknown h2' h3' h4' h6' h7' => exact absurd h_ (h4' _ (Or.inl rfl))
  | nounJosa l_ r_ h1_ h_ hmin_ =>
    cases h' with
    | noun h' => exact absurd h' h1_
    | nounJosa l' r' h1' h' hmin' => exact split_unique h_ h' (Nat.le_antisymm (hmin_ _ _ h') (hmin' _ _ h_))
    | nounPred l' r' t' h1' h2' h' hmin' hverb' => exact absurd h_ (h2' _ _)
    | single t' before' after' h1' h2' h3' ht' hb' hs' hd' => exact absurd h_ (h2' _ _)
    | twoAdverbs a' b' h2' h3' h4' h' => exact absurd h_ (h2' _ _)
    | twoNouns a' b' h2' h3' h4' h5' h' => exact absurd h_ (h2' _ _)
    | threeAdverbs a' b' c' h2' h3' h4' h6' h' => exact absurd h_ (h2' _ _)
    | unknown h2' h3' h4' h6' h7' => exact absurd h_ (h2' _ _)
  | nounPred l_ r_ t_ h1_ h2_ h_ hmin_ hverb_ =>
    cases h' with
    | noun h' => exact absurd h' h1_
    | nounJosa l' r' h1' h' hmin' => exact absurd h' (h2_ _ _)
    | nounPred l' r' t' h1' h2' h' hmin' hverb' => exact pred_unique h_ h' (Nat.le_antisymm (hmin_ _ _ _ h') (hmin' _ _ _ h_)) hverb_ hverb'
    | single t' before' after' h1' h2' h3' ht' hb' hs' hd' => exact absurd h_ (h3' _ _ _)
    | twoAdverbs a' b' h2' h3' h4' h' => exact absurd h_ (h3' _ _ _)
    | twoNouns a' b' h2' h3' h4' h5' h' => exact absurd h_ (h3' _ _ _)
    | threeAdverbs a' b' c' h2' h3' h4' h6' h' => exact absurd h_ (h3' _ _ _)
    | unknown h2' h3' h4' h6' h7' => exact absurd h_ (h3' _ _ _)
  | single t_ before_ after_ h1_ h2_ h3_ ht_ hb_ hs_ hd_ =>
    cases h' with
    | noun h' => exact absurd h' h1_
    | nounJosa l' r' h1' h' hmin' => exact absurd h' (h2_ _ _)
    | nounPred l' r' t' h1' h2' h' hmin' hverb' => exact absurd h' (h3_ _ _ _)
    | single t' before' after' h1' h2' h3' ht' hb' hs' hd' => exact by rw [first_unique (fun u => Spec.EojeolTagger.Single u ∧ D u e) (ht_.symm.trans ht') (fun u hu hx => hb_ u hu hx.1 hx.2) (fun u hu hx => hb' u hu hx.1 hx.2) ⟨hs_, hd_⟩ ⟨hs', hd'⟩]
    | twoAdverbs a' b' h2' h3' h4' h' => exact absurd hd_ (h4' _ hs_)
    | twoNouns a' b' h2' h3' h4' h5' h' => exact absurd hd_ (h4' _ hs_)
    | threeAdverbs a' b' c' h2' h3' h4' h6' h' => exact absurd hd_ (h4' _ hs_)
    | unknown h2' h3' h4' h6' h7' => exact absurd hd_ (h4' _ hs_)
  | twoAdverbs a_ b_ h2_ h3_ h4_ h_ =>
    cases h' with
    | noun h' => exact absurd h' (h4_ _ (Or.inl rfl))
    | nounJosa l' r' h1' h' hmin' => exact absurd h' (h2_ _ _)
    | nounPred l' r' t' h1' h2' h' hmin' hverb' => exact absurd h' (h3_ _ _ _)
    | single t' before' after' h1' h2' h3' ht' hb' hs' hd' => exact absurd hd' (h4_ _ hs')
    | twoAdverbs a' b' h2' h3' h4' h' => exact by injection chain_unique h_.1 h'.1 with e1 e2; injection e2 with e2; rw [e1, e2]
    | twoNouns a' b' h2' h3' h4' h5' h' => exact absurd h_ (h5' _ _)
    | threeAdverbs a' b' c' h2' h3' h4' h6' h' => exact absurd (chain_unique h_.1 h'.1) (by simp)
    | unknown h2' h3' h4' h6' h7' => exact absurd (h7' _ h_) (by simp)
  | twoNouns a_ b_ h2_ h3_ h4_ h5_ h_ =>
    cases h' with
    | noun h' => exact absurd h' (h4_ _ (Or.inl rfl))
    | nounJosa l' r' h1' h' hmin' => exact absurd h' (h2_ _ _)
    | nounPred l' r' t' h1' h2' h' hmin' hverb' => exact absurd h' (h3_ _ _ _)
    | single t' before' after' h1' h2' h3' ht' hb' hs' hd' => exact absurd hd' (h4_ _ hs')
    | twoAdverbs a' b' h2' h3' h4' h' => exact absurd h' (h5_ _ _)
    | twoNouns a' b' h2' h3' h4' h5' h' => exact by injection chain_unique h_.1 h'.1 with e1 e2; injection e2 with e2; rw [e1, e2]
    | threeAdverbs a' b' c' h2' h3' h4' h6' h' => exact absurd h_ (h6' _ _)
    | unknown h2' h3' h4' h6' h7' => exact absurd h_ (h6' _ _)
  | threeAdverbs a_ b_ c_ h2_ h3_ h4_ h6_ h_ =>
    cases h' with
    | noun h' => exact absurd h' (h4_ _ (Or.inl rfl))
    | nounJosa l' r' h1' h' hmin' => exact absurd h' (h2_ _ _)
    | nounPred l' r' t' h1' h2' h' hmin' hverb' => exact absurd h' (h3_ _ _ _)
    | single t' before' after' h1' h2' h3' ht' hb' hs' hd' => exact absurd hd' (h4_ _ hs')
    | twoAdverbs a' b' h2' h3' h4' h' => exact absurd (chain_unique h'.1 h_.1) (by simp)
    | twoNouns a' b' h2' h3' h4' h5' h' => exact absurd h' (h6_ _ _)
    | threeAdverbs a' b' c' h2' h3' h4' h6' h' => exact by injection chain_unique h_.1 h'.1 with e1 e2; injection e2 with e2 e3; injection e3 with e3; rw [e1, e2, e3]
    | unknown h2' h3' h4' h6' h7' => exact absurd (h7' _ h_) (by simp)
  | unknown h2_ h3_ h4_ h6_ h7_ =>
    cases h' with
    | noun h' => exact absurd h' (h4_ _ (Or.inl rfl))
    | nounJosa l' r' h1' h' hmin' => exact absurd h' (h2_ _ _)
    | nounPred l' r' t' h1' h2' h' hmin' hverb' => exact absurd h' (h3_ _ _ _)
    | single t' before' after' h1' h2' h3' ht' hb' hs' hd' => exact absurd hd' (h4_ _ hs')
    | twoAdverbs a' b' h2' h3' h4' h' => exact absurd (h7_ _ h') (by simp)
    | twoNouns a' b' h2' h3' h4' h5' h' => exact absurd h' (h6_ _ _)
    | threeAdverbs a' b' c' h2' h3' h4' h6' h' => exact absurd (h7_ _ h') (by simp)
    | unknown h2' h3' h4' h6' h7' => exact rfl

/-- **C87** In particular an eojeol cut into three or more nouns and with no other reading comes out without a tag, as one word. -/
theorem C87_long_compound (D : Str → Str → Prop) (tags : List Str) (e : Str) (ws : List Str) (out : List (Str × Option Str))
    (h : Choice D tags e out) (hw : Compound (D noun) e ws) (hl : 3 ≤ ws.length) (h2 : ∀ l r t, ¬ Split D e l r noun t) (h4 : ∀ t, Single t → ¬ D t e)
    (h7 : ∀ as, ¬ Compound (D adverb) e as) : out = [(e, none)] :=
  C87_deterministic D tags e out _ h (.unknown (fun l r => h2 l r _) (fun l r t ht => h2 l r t ht.2) h4
    (fun a b hab => by have := chain_unique hab.1 hw.1; subst this; simp at hl) (fun as ha => absurd ha (h7 as)))

/-- two nouns are tagged, three are not -/
example : ∃ s, create [("Noun".toList, ["아이".toList, "노래".toList]), ("Josa".toList, ["는".toList])] = .ok s ∧ DReach s ∧
    tagFlat (fun e => selectBest (evaluateEojeol {}) (EojeolMatcher.generate { dictionary := s } e)) none "노래아이 노래아이노래 노래는".toList =
      .ok [("노래".toList, some "Noun".toList), ("아이".toList, some "Noun".toList), ("노래아이노래".toList, none),
        ("노래".toList, some "Noun".toList), ("는".toList, some "Josa".toList)] :=
  ⟨_, rfl, .create [("Noun".toList, ["아이".toList, "노래".toList]), ("Josa".toList, ["는".toList])] _ (by unfold Dict.WF; decide) rfl, by decide +kernel⟩

end Props

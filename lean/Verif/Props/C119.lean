import Verif.Props.C05_C07
import Verif.Props.C08
import Verif.Props.C09_C10
import Verif.Props.C11
import Verif.Props.C21_C23
import Verif.Props.C30_C32
import Verif.Props.C33
import Verif.Props.C118Counts
import Verif.Model.MaxScore

/-! C119: everything read backwards. -/

namespace Props

open Py Spec

/-! ### distances -/

section
variable {α : Type} [DecidableEq α]
open Distance

theorem table_reverse (sub : α → α → Rat) (a b : List α) : tableDistance (diag sub) a.reverse b.reverse = tableDistance (diag sub) a b := by
  have h := tableDistance_least sub a b
  have h' := tableDistance_least sub a.reverse b.reverse
  refine least_unique (sub := sub) (a := a) (b := b) ⟨?_, ?_⟩ h
  · have := script_reverse h'.1; simpa using this
  · intro w hw; exact h'.2 w (script_reverse hw)

/-- Reversing both texts changes none of the distances. -/
theorem C119_levenshtein (a b : List α) (cost : Dict (α × α) Rat) : levenshtein a.reverse b.reverse cost = levenshtein a b cost := by
  unfold levenshtein
  rw [List.length_reverse, List.length_reverse]
  split
  · exact table_reverse (fun x y => Dict.getD ([] : Dict (α × α) Rat) (x, y) 1) b a
  · exact table_reverse (fun x y => Dict.getD cost (x, y) 1) a b

theorem C119_jamo (a b : Str) : jamoLevenshtein a.reverse b.reverse = jamoLevenshtein a b := by
  have hd : getJamoCost = diag getJamoCost := by
    funext x y
    unfold diag
    by_cases h : x = y
    · rw [if_pos h]; unfold getJamoCost; rw [if_pos h]
    · rw [if_neg h]
  unfold jamoLevenshtein
  rw [List.length_reverse, List.length_reverse, hd, table_reverse, table_reverse]

theorem C119_cosine (a b : List α) : cosineDistance a.reverse b.reverse = cosineDistance a b := by
  by_cases h : a = [] ∨ b = []
  · rw [C08_cosine_empty _ _ h, C08_cosine_empty _ _ (by simpa using h)]
  · rw [not_or] at h
    rw [C08_cosine_value _ _ h.1 h.2, C08_cosine_value _ _ (by simpa using h.1) (by simpa using h.2)]
    simp only [List.toFinset_reverse, List.count_reverse]

theorem C119_jaccard (a b : List α) : jaccardDistance List.toFinset a.reverse b.reverse = jaccardDistance List.toFinset a b := by
  unfold jaccardDistance
  simp only [List.reverse_eq_nil_iff, List.toFinset_reverse]

end

/-! ### runs and normalisers -/

theorem runsGo_stop {p : Char → Bool} {c : Char} (hc : p c = false) (b : Str) : ∀ (a cur : Str), runsGo p cur (a ++ c :: b) = runsGo p cur a ++ runs p b
  | [], cur => by
    simp only [List.nil_append, runsGo, hc, Bool.false_eq_true, if_false, runs]
    split <;> rfl
  | x :: a, cur => by
    simp only [List.cons_append, runsGo]
    split
    · exact runsGo_stop hc b a _
    · split
      · exact runsGo_stop hc b a _
      · rw [runsGo_stop hc b a, List.cons_append]

theorem runsGo_all {p : Char → Bool} : ∀ (s cur : Str), (∀ c ∈ s, p c = true) → runsGo p cur s = if cur ++ s = [] then [] else [cur ++ s]
  | [], cur, _ => by simp [runsGo]
  | x :: s, cur, h => by
    rw [runsGo, if_pos (h x (List.mem_cons_self ..)), runsGo_all s _ (fun c hc => h c (List.mem_cons_of_mem _ hc))]
    simp

theorem runs_reverse (p : Char → Bool) (s : Str) : runs p s.reverse = ((runs p s).map List.reverse).reverse := by
  induction hN : s.length using Nat.strongRecOn generalizing s with
  | _ N ih =>
    by_cases hall : ∀ c ∈ s, p c = true
    · unfold runs
      rw [runsGo_all _ _ hall, runsGo_all _ _ (by simpa using hall)]
      by_cases h : s = []
      · subst h; rfl
      · simp [h]
    · push Not at hall
      obtain ⟨c, hc, hp⟩ := hall
      obtain ⟨a, b, rfl⟩ := List.append_of_mem hc
      have hp : p c = false := by simpa using hp
      have e : runs p (a ++ c :: b) = runs p a ++ runs p b := runsGo_stop hp b a []
      have e' : runs p (a ++ c :: b).reverse = runs p b.reverse ++ runs p a.reverse := by
        rw [List.reverse_append, List.reverse_cons, List.append_assoc]
        exact runsGo_stop hp a.reverse b.reverse []
      simp only [List.length_append, List.length_cons] at hN
      rw [e, e', ih a.length (by omega) a rfl, ih b.length (by omega) b rfl]
      simp

theorem intersperse_snoc {β : Type} (sep a : β) : ∀ l : List β, l ≠ [] → (l ++ [a]).intersperse sep = l.intersperse sep ++ [sep, a]
  | [], h => absurd rfl h
  | [b], _ => rfl
  | b :: c :: l, _ => by
    have := intersperse_snoc sep a (c :: l) (by simp)
    simp only [List.cons_append, List.intersperse] at this ⊢
    rw [this]

theorem intersperse_reverse {β : Type} (sep : β) (l : List β) : l.reverse.intersperse sep = (l.intersperse sep).reverse := by
  induction l with
  | nil => rfl
  | cons a l ih =>
    cases l with
    | nil => rfl
    | cons b l =>
      rw [List.reverse_cons, intersperse_snoc _ _ _ (by simp), ih]
      simp [List.intersperse]

theorem intersperse_map_reverse (sep : Str) (l : List Str) : (l.intersperse sep).map List.reverse = (l.map List.reverse).intersperse sep.reverse := by
  induction l with
  | nil => rfl
  | cons a l ih =>
    cases l with
    | nil => rfl
    | cons b l =>
      simp only [List.intersperse, List.map_cons] at ih ⊢
      rw [ih]

theorem blankJoin_reverse (ws : List Str) : blankJoin ((ws.map List.reverse).reverse) = (blankJoin ws).reverse := by
  unfold blankJoin
  rw [List.reverse_flatten, intersperse_reverse, intersperse_map_reverse]
  rfl

theorem maximalRuns_iff {α : Type} : ∀ rl : List (α × Nat), MaximalRuns rl ↔ (∀ e ∈ rl, 0 < e.2) ∧ rl.IsChain (fun e f => e.1 ≠ f.1)
  | [] => by simp [MaximalRuns]
  | [e] => by simp [MaximalRuns]
  | e :: f :: rl => by
    rw [MaximalRuns, maximalRuns_iff (f :: rl), List.isChain_cons_cons]
    simp only [List.mem_cons, forall_eq_or_imp]
    tauto

theorem maximalRuns_reverse {α : Type} {rl : List (α × Nat)} (h : MaximalRuns rl) : MaximalRuns rl.reverse := by
  rw [maximalRuns_iff] at h ⊢
  refine ⟨fun e he => h.1 e (by simpa using he), ?_⟩
  rw [List.isChain_reverse]
  exact h.2.imp (fun a b hab => Ne.symm hab)

theorem expand_reverse {α : Type} (rl : List (α × Nat)) : expand rl.reverse = (expand rl).reverse := by
  unfold expand
  rw [List.reverse_flatMap]
  congr 1
  funext e
  exact List.reverse_replicate.symm

theorem repeatSub_reverse (isWord : Char → Bool) (n : Nat) (s : Str) : Hangle.repeatSub isWord 3 n s.reverse = (Hangle.repeatSub isWord 3 n s).reverse := by
  obtain ⟨rl, h, rfl⟩ := C10_runs_exist s
  rw [← expand_reverse, Hangle.repeatSub_expand _ _ _ _ (maximalRuns_reverse h), Hangle.repeatSub_expand _ _ _ _ h, List.map_reverse, expand_reverse]

/-- The normalisers that look at characters one by one, or at repetitions, commute with reversing. -/
theorem C119_normalize (isWord : Char → Bool) (doc : Str) (a n p s : Bool) (k : Nat) :
    Normalizer.normalize isWord doc.reverse a n p s k = (Normalizer.normalize isWord doc a n p s k).reverse := by
  by_cases hk : 0 < k
  · rw [C09_normalize_repeat _ _ _ _ _ _ _ hk, C09_normalize_repeat _ _ _ _ _ _ _ hk, runs_reverse, ← blankJoin_reverse, List.map_reverse, List.map_map, List.map_map]
    congr 2
    apply List.map_congr_left
    intro x _
    exact repeatSub_reverse isWord k x
  · obtain rfl : k = 0 := by omega
    rw [C09_normalize_runs, C09_normalize_runs, runs_reverse, blankJoin_reverse]

theorem C119_repeat (isWord : Char → Bool) (s : Str) (k : Nat) :
    Normalizer.repeatNormalize isWord s.reverse k = (Normalizer.repeatNormalize isWord s k).reverse := by
  by_cases hk : 0 < k
  · obtain ⟨rl, h, rfl⟩ := C10_runs_exist s
    rw [← expand_reverse, C10_repeat_runs isWord _ (maximalRuns_reverse h) k hk, C10_repeat_runs isWord _ h k hk, List.map_reverse, expand_reverse, pieces, runs_reverse, blankJoin_reverse]
  · obtain rfl : k = 0 := by omega
    rw [C10_zero, C10_zero, pieces, runs_reverse, blankJoin_reverse]

theorem C119_only (s : Str) : Normalizer.onlyHangle s.reverse = (Normalizer.onlyHangle s).reverse ∧
    Normalizer.onlyHangleNumber s.reverse = (Normalizer.onlyHangleNumber s).reverse ∧ Normalizer.onlyText s.reverse = (Normalizer.onlyText s).reverse := by
  obtain ⟨h1, h2, h3⟩ := C09_only s
  obtain ⟨g1, g2, g3⟩ := C09_only s.reverse
  rw [h1, h2, h3, g1, g2, g3, runs_reverse, runs_reverse, runs_reverse, blankJoin_reverse, blankJoin_reverse, blankJoin_reverse]
  exact ⟨rfl, rfl, rfl⟩

/-- `emoticon_normalize` reads a syllable between its neighbours, and from left to right: it does not commute with reversing. -/
theorem C119_emoticon_violated : ∃ (s t u : Str), Normalizer.emoticonNormalize (fun _ => true) s 2 = .ok t ∧
    Normalizer.emoticonNormalize (fun _ => true) s.reverse 2 = .ok u ∧ u ≠ t.reverse :=
  ⟨"ㅋ쿠".toList, _, _, rfl, rfl, by decide +kernel⟩

/-! ### counts -/

theorem splitWs_reverse (s : Str) : splitWs s.reverse = ((splitWs s).map List.reverse).reverse := by
  have e : ∀ t : Str, splitWs t = runs (fun c => true && !isSpace c) t := by
    intro t
    have := splitWs_keepOrBlank (fun _ => true) t
    simpa [keepOrBlank] using this
  rw [e, e, runs_reverse]

theorem tokens_reverse (sents : List Str) : (tokensOf (sents.map List.reverse)).Perm ((tokensOf sents).map List.reverse) := by
  unfold tokensOf
  induction sents with
  | nil => exact .nil
  | cons s sents ih =>
    rw [List.map_cons, List.flatMap_cons, List.flatMap_cons, List.map_append, splitWs_reverse]
    exact (List.reverse_perm _).append ih

theorem count_map_reverse (l : List Str) (e : Str) : (l.map List.reverse).count e.reverse = l.count e :=
  List.count_map_of_injective l List.reverse List.reverse_injective e

/-- Counting the eojeols of reversed sentences counts the reversed eojeols. -/
theorem C119_eojeols (minCount maxLength : Int) (sents : List Str) (hne : sents ≠ []) :
    ∃ a b, EC.construct ⟨minCount, maxLength, 0, id⟩ (some sents) = .ok a ∧ EC.construct ⟨minCount, maxLength, 0, id⟩ (some (sents.map List.reverse)) = .ok b ∧
      ∀ e, EC.getitem b e.reverse = EC.getitem a e := by
  obtain ⟨a, ha, -, ga, -⟩ := C21_exact ⟨minCount, maxLength, 0, id⟩ sents hne (.inl (le_refl _))
  obtain ⟨b, hb, -, gb, -⟩ := C21_exact ⟨minCount, maxLength, 0, id⟩ (sents.map List.reverse) (by simpa using hne) (.inl (le_refl _))
  refine ⟨a, b, ha, hb, fun e => ?_⟩
  have hc : (eojeolsOf id (sents.map List.reverse)).count e.reverse = (eojeolsOf id sents).count e := by
    have := (tokens_reverse sents).count_eq e.reverse
    rw [count_map_reverse] at this
    exact this
  rw [ga, gb]
  dsimp only
  rw [hc, List.length_reverse]

theorem zip_snoc (a b : Str) : ∀ Y : List Str, (Y ++ [b, a]).zip ((Y ++ [b, a]).drop 1) = (Y ++ [b]).zip ((Y ++ [b]).drop 1) ++ [(b, a)]
  | [] => rfl
  | [c] => rfl
  | c :: d :: Y => by
    have := zip_snoc a b (d :: Y)
    simp only [List.cons_append, List.drop_succ_cons, List.drop_zero, List.zip_cons_cons] at this ⊢
    rw [this]

theorem adjacent_reverse (u v : Str) (ws : List Str) : adjacent (v.reverse, u.reverse) ((ws.map List.reverse).reverse) = adjacent (u, v) ws := by
  have key : ∀ (x y : Str) (l : List Str), adjacent (x, y) l = (l.zip (l.drop 1)).countP (fun q => decide (q.1 = x ∧ q.2 = y)) := by
    intro x y l
    unfold adjacent
    induction l with
    | nil => rfl
    | cons a l ih =>
      rw [List.length_cons, List.range_succ_eq_map, List.countP_cons, List.countP_map]
      cases l with
      | nil => simp
      | cons b l =>
        simp only [List.drop_succ_cons, List.drop_zero, List.zip_cons_cons, List.countP_cons] at ih ⊢
        have e : (List.range (b :: l).length).countP ((fun i => decide ((a :: b :: l)[i]? = some (x, y).1 ∧ (a :: b :: l)[i + 1]? = some (x, y).2)) ∘ Nat.succ) =
            (List.range (b :: l).length).countP (fun i => decide ((b :: l)[i]? = some (x, y).1 ∧ (b :: l)[i + 1]? = some (x, y).2)) := by
          apply List.countP_congr
          intro i _
          simp
        rw [e, ih]
        simp
  rw [key, key]
  have hz : ∀ l : List Str, (l.map List.reverse).reverse.zip ((l.map List.reverse).reverse.drop 1) = ((l.zip (l.drop 1)).map (fun q => (q.2.reverse, q.1.reverse))).reverse := by
    intro l
    induction l with
    | nil => rfl
    | cons a l ih =>
      cases l with
      | nil => rfl
      | cons b l =>
        simp only [List.map_cons, List.reverse_cons, List.append_assoc, List.cons_append, List.nil_append] at ih ⊢
        rw [zip_snoc, ih]
        simp
  rw [hz, List.countP_reverse, List.countP_map]
  apply List.countP_congr
  intro q _
  simp [and_comm]

/-- The pairs of reversed sentences are the reversed pairs, swapped. -/
theorem C119_bigrams (minFrequency : Int) (verbose : Bool) (sents : List Str) (topk threshold : Int) :
    ∃ d d', BG.extractByFrequency (BG.train ⟨minFrequency, verbose, 0, splitWs⟩ sents).1 topk threshold = .ok d ∧
      BG.extractByFrequency (BG.train ⟨minFrequency, verbose, 0, splitWs⟩ (sents.map List.reverse)).1 topk threshold = .ok d' ∧
      ∀ u v, Dict.get? d' (v.reverse, u.reverse) = Dict.get? d (u, v) := by
  obtain ⟨d, hd, gd⟩ := C33_counts ⟨minFrequency, verbose, 0, splitWs⟩ sents (.inl (le_refl _)) topk threshold
  obtain ⟨d', hd', gd'⟩ := C33_counts ⟨minFrequency, verbose, 0, splitWs⟩ (sents.map List.reverse) (.inl (le_refl _)) topk threshold
  refine ⟨d, d', hd, hd', fun u v => ?_⟩
  have hc : bigramCount ⟨minFrequency, verbose, 0, splitWs⟩ (sents.map List.reverse) (v.reverse, u.reverse) = bigramCount ⟨minFrequency, verbose, 0, splitWs⟩ sents (u, v) := by
    unfold bigramCount
    rw [List.map_map]
    congr 1
    apply List.map_congr_left
    intro s _
    show adjacent _ (splitWs s.reverse) = _
    rw [splitWs_reverse, adjacent_reverse]
  rw [gd, gd', hc]

/-- The right frequency of a reversed word in the reversed corpus is the left frequency of the word, if no token of the corpus is the word itself and both length limits allow it. -/
theorem C119_words (p q : WX.Params) (hm : p.minFrequency = q.minFrequency) (sents : List Str) (hne : sents ≠ []) (w : Str) (hw : w ∉ tokensOf sents)
    (hl : (w.length : Int) ≤ p.maxLeft + 1) (hr : (w.length : Int) ≤ q.maxRight) :
    ∃ a b, WX.train p {} sents = .ok a ∧ WX.train q {} (sents.map List.reverse) = .ok b ∧ (WX.frequency b w.reverse).2 = (WX.frequency a w).1 := by
  obtain ⟨a, ha, ga⟩ := C30_counts p {} sents 0 true hne (le_refl _) (.inr rfl)
  obtain ⟨b, hb, gb⟩ := C30_counts q {} (sents.map List.reverse) 0 true (by simpa using hne) (le_refl _) (.inr rfl)
  refine ⟨a, b, ha, hb, ?_⟩
  rw [(ga w).2.2, (gb w.reverse).2.2]
  have hc : suffixCount q.maxRight (tokensOf (sents.map List.reverse)) w.reverse = prefixCount p.maxLeft (tokensOf sents) w := by
    unfold suffixCount prefixCount
    rw [(tokens_reverse sents).countP_eq, List.countP_map]
    apply List.countP_congr
    intro t ht
    simp only [Function.comp, decide_eq_true_eq, List.length_reverse, ne_eq, List.reverse_eq_nil_iff, List.reverse_suffix]
    constructor
    · rintro ⟨h1, h2, -, h4, -⟩; exact ⟨h1, h2, hl, h4⟩
    · rintro ⟨h1, h2, -, h4⟩
      refine ⟨h1, h2, hr, h4, ?_⟩
      rcases Nat.lt_or_ge w.length t.length with h | h
      · exact h
      · exact absurd (h4.eq_of_length_le h ▸ ht) hw
  unfold Dict.getD
  rw [(ga w).1, (gb w.reverse).2.1, hc, hm]

/-- For a word that stands alone it fails: a whole token counts as a left part and never as a right part. -/
theorem C119_words_violated : ∃ (sents : List Str) (w : Str) (a b : WX.State), WX.train ⟨10, 10, 1⟩ {} sents = .ok a ∧
    WX.train ⟨10, 10, 1⟩ {} (sents.map List.reverse) = .ok b ∧ (WX.frequency b w.reverse).2 ≠ (WX.frequency a w).1 :=
  ⟨["ab cd".toList], "ab".toList, _, _, rfl, rfl, by decide +kernel⟩

/-- `MaxScoreTokenizer` prefers the word on the left among overlapping words of equal score and length, so the tokens of the reversed text with the reversed words are others. -/
theorem C119_maxscore_violated : ∃ (scores : Dict Str Rat) (s : Str) (ws us : List Str), MaxScore.tokenize scores 10 0 s = .ok ws ∧
    MaxScore.tokenize (scores.map (fun e => (e.1.reverse, e.2))) 10 0 s.reverse = .ok us ∧ us ≠ (ws.map List.reverse).reverse :=
  ⟨[("ab".toList, 1), ("bc".toList, 1)], "abc".toList, _, _, rfl, rfl, by decide +kernel⟩

example : WX.Params.maxLeft ⟨10, 11, 1⟩ = 10 ∧ "ab".toList ∉ tokensOf ["abc abd".toList] ∧ prefixCount 10 (tokensOf ["abc abd".toList]) "ab".toList = 2 := by decide +kernel

end Props

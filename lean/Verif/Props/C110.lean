import Verif.Props.C106
import Verif.Model.Calls
import Verif.Model.TokNormalizer
import Verif.Model.Postagger
import Verif.Proofs.Text
import Verif.Spec.Unicode
/-!
C110: where a text is cut. The tokenizers, the tagger and `tokenizer.normalize` work eojeol by eojeol: what they make of two texts joined by a
whitespace character is what they make of the first followed by what they make of the second. `EojeolCounter`, `LRGraph`, `NewsNounExtractor` and the
left and right frequencies of `WordExtractor` do not depend on where the corpus is cut into sentences either; `Bigram` counts exactly one pair more
when two sentences are written on one line, the one across the cut.
-/
namespace Props
open Py

/-- first `r`, then `s`: the results one after the other; the first exception wins -/
def thenAppend {α : Type} (r s : PyM (List α)) : PyM (List α) :=
  match r with
  | .error e => .error e
  | .ok a => match s with
    | .error e => .error e
    | .ok b => .ok (a ++ b)

private theorem splitGo_append (t : Str) (c : Char) (hc : isSpace c = true) (u : Str) : ∀ cur, splitGo cur (t ++ c :: u) = splitGo cur t ++ splitGo [] u := by
  induction t with
  | nil =>
    intro cur
    simp only [List.nil_append, splitGo, hc, if_true]
    by_cases h : cur = [] <;> simp [h]
  | cons x t ih =>
    intro cur
    simp only [List.cons_append, splitGo]
    by_cases hx : isSpace x = true
    · simp only [hx, if_true]
      by_cases h : cur = []
      · simp only [h, if_true]; exact ih []
      · simp only [h, if_false, List.cons_append]; rw [ih []]
    · simp only [hx]; exact ih _

/-- the words of two texts joined by a whitespace character -/
theorem splitWs_joined (t u : Str) (c : Char) (hc : c.toNat ∈ Spec.whitespace) : splitWs (t ++ c :: u) = splitWs t ++ splitWs u :=
  splitGo_append t c ((isSpace_iff c).2 hc) u []

private theorem mapM_joined {α β : Type} (f : α → PyM β) (xs ys : List α) : (xs ++ ys).mapM f = thenAppend (xs.mapM f) (ys.mapM f) := by
  induction xs with
  | nil => simp only [List.nil_append, List.mapM_nil]; unfold thenAppend; cases ys.mapM f <;> rfl
  | cons x xs ih =>
    rw [List.cons_append, List.mapM_cons, List.mapM_cons, ih]
    cases f x with
    | error e => rfl
    | ok a =>
      cases xs.mapM f with
      | error e => rfl
      | ok b => cases ys.mapM f <;> rfl

private theorem thenAppend_map {α β : Type} (g : List α → List β) (hg : ∀ a b, g (a ++ b) = g a ++ g b) (r s : PyM (List α)) :
    (thenAppend r s).map g = thenAppend (r.map g) (s.map g) := by
  cases r with
  | error e => rfl
  | ok a => cases s with
    | error e => rfl
    | ok b => simp [thenAppend, Except.map, hg]

private theorem bind_eq_map {α β : Type} (r : PyM α) (g : α → β) : (do let a ← r; .ok (g a) : PyM β) = r.map g := by cases r <;> rfl

/-- **C110** The tokenizers on two texts joined by a whitespace character: the tokens of the first, then those of the second; if the first raises, that
    exception, else if the second does, that one. -/
theorem C110_tokenizers (isDigit : Char → Bool) (scores : Dict Str Rat) (ds tol : Rat) (maxLength : Nat) (isNoun : Str → Bool) (g : MaxLR.Config) (compose : Bool)
    (t u : Str) (c : Char) (hc : c.toNat ∈ Spec.whitespace) :
    RegexTok.tokenize isDigit (t ++ c :: u) = RegexTok.tokenize isDigit t ++ RegexTok.tokenize isDigit u ∧
    LTok.tokenize scores ds tol (t ++ c :: u) = thenAppend (LTok.tokenize scores ds tol t) (LTok.tokenize scores ds tol u) ∧
    LTok.tokenizeL scores ds tol (t ++ c :: u) = thenAppend (LTok.tokenizeL scores ds tol t) (LTok.tokenizeL scores ds tol u) ∧
    MaxScore.tokenize scores maxLength ds (t ++ c :: u) = thenAppend (MaxScore.tokenize scores maxLength ds t) (MaxScore.tokenize scores maxLength ds u) ∧
    NounTok.tokenizeL isNoun (t ++ c :: u) compose = NounTok.tokenizeL isNoun t compose ++ NounTok.tokenizeL isNoun u compose ∧
    NounTok.matchTokenize scores (t ++ c :: u) compose = thenAppend (NounTok.matchTokenize scores t compose) (NounTok.matchTokenize scores u compose) ∧
    MaxLR.tokenize g (t ++ c :: u) = thenAppend (MaxLR.tokenize g t) (MaxLR.tokenize g u) := by
  have hs := splitWs_joined t u c hc
  refine ⟨?_, ?_, ?_, ?_, ?_, ?_, ?_⟩
  · unfold RegexTok.tokenize; rw [hs, List.flatMap_append, List.filter_append]
  · unfold LTok.tokenize LTok.tokenizePairs
    rw [bind_eq_map, bind_eq_map, bind_eq_map, hs, mapM_joined, thenAppend_map]
    intro a b; rw [List.flatMap_append, List.filter_append]
  · unfold LTok.tokenizeL LTok.tokenizePairs
    rw [bind_eq_map, bind_eq_map, bind_eq_map, hs, mapM_joined, thenAppend_map]
    intro a b; rw [List.map_append]
  · unfold MaxScore.tokenize MaxScore.tokenizeSpans
    rw [bind_eq_map, bind_eq_map, bind_eq_map, hs, mapM_joined, thenAppend_map]
    intro a b; rw [List.flatMap_append]
  · unfold NounTok.tokenizeL
    rw [hs]
    cases compose <;> simp [List.map_append, List.filter_append, List.flatten_append]
  · unfold NounTok.matchTokenize NounTok.matchSpans
    rw [bind_eq_map, bind_eq_map, bind_eq_map, hs, List.map_append, List.filter_append, mapM_joined, thenAppend_map]
    intro a b; rw [List.flatten_append, List.map_append, List.filter_append]
  · unfold MaxLR.tokenize
    rw [bind_eq_map, bind_eq_map, bind_eq_map, hs, mapM_joined, thenAppend_map]
    intro a b; rw [List.flatten_append]

/-- **C110** `SimpleTagger.tag`, with any generator, evaluator and postprocessor: the tagged words of the first text, then those of the second. -/
theorem C110_tagger (best : Str → Option (List PT.LR)) (post : Option (Str → List PT.LR → List PT.LR)) (t u : Str) (c : Char) (hc : c.toNat ∈ Spec.whitespace) :
    PT.tagSentence best post (t ++ c :: u) = thenAppend (PT.tagSentence best post t) (PT.tagSentence best post u) ∧
    PT.tagFlat best post (t ++ c :: u) = thenAppend (PT.tagFlat best post t) (PT.tagFlat best post u) := by
  have h : PT.tagSentence best post (t ++ c :: u) = thenAppend (PT.tagSentence best post t) (PT.tagSentence best post u) := by
    unfold PT.tagSentence; rw [splitWs_joined t u c hc, mapM_joined]
  refine ⟨h, ?_⟩
  unfold PT.tagFlat
  rw [h]
  cases PT.tagSentence best post t with
  | error e => rfl
  | ok a => cases PT.tagSentence best post u with
    | error e => rfl
    | ok b => simp [thenAppend]

private theorem join_append : ∀ (a b : List Str), a ≠ [] → b ≠ [] → join [' '] (a ++ b) = join [' '] a ++ ' ' :: join [' '] b
  | [], _, h, _ => absurd rfl h
  | [x], [], _, h => absurd rfl h
  | [x], y :: ys, _, _ => by simp [join]
  | x :: y :: xs, b, _, hb => by
    have := join_append (y :: xs) b (by simp) hb
    simp only [List.cons_append] at this ⊢
    simp only [join, this]
    simp

/-- **C110** `tokenizer.normalize` on two texts joined by a whitespace character: the two results joined by one blank (a text without any word gives the
    empty text and adds nothing). -/
theorem C110_normalize (isWord : Char → Bool) (n : Int) (t u : Str) (c : Char) (hc : c.toNat ∈ Spec.whitespace) (a b : Str)
    (ha : TokNorm.normalize isWord t n = .ok a) (hb : TokNorm.normalize isWord u n = .ok b) :
    TokNorm.normalize isWord (t ++ c :: u) n = .ok (if splitWs t = [] then b else if splitWs u = [] then a else a ++ ' ' :: b) := by
  unfold TokNorm.normalize at *
  rw [bind_eq_map] at *
  rw [splitWs_joined t u c hc, mapM_joined]
  cases ht : (splitWs t).mapM (TokNorm.normalizeToken isWord n) with
  | error e => rw [ht] at ha; cases ha
  | ok xs =>
    cases hu : (splitWs u).mapM (TokNorm.normalizeToken isWord n) with
    | error e => rw [hu] at hb; cases hb
    | ok ys =>
      rw [ht] at ha; rw [hu] at hb
      simp only [Except.map, Except.ok.injEq] at ha hb
      have nil : ∀ {s : List Str} {zs : List Str}, s.mapM (TokNorm.normalizeToken isWord n) = .ok zs → (s = [] ↔ zs = []) := by
        intro s zs h
        cases s with
        | nil => simp [pure, Except.pure] at h; simp [h]
        | cons w s =>
          rw [List.mapM_cons] at h
          cases hw : TokNorm.normalizeToken isWord n w with
          | error e => rw [hw] at h; cases h
          | ok z => rw [hw] at h; cases hz : s.mapM (TokNorm.normalizeToken isWord n) with
            | error e => rw [hz] at h; cases h
            | ok zs' => rw [hz] at h; simp [bind, Except.bind, pure, Except.pure] at h; simp [← h]
      simp only [thenAppend, Except.map, Except.ok.injEq]
      subst ha hb
      by_cases h1 : splitWs t = []
      · rw [if_pos h1, (nil ht).1 h1]; rfl
      · rw [if_neg h1]
        by_cases h2 : splitWs u = []
        · rw [if_pos h2, (nil hu).1 h2, List.append_nil]
        · rw [if_neg h2]; exact join_append xs ys (fun h => h1 ((nil ht).2 h)) (fun h => h2 ((nil hu).2 h))

/-- **C110** The counters do not see where a line is cut: with two sentences written on one line `EojeolCounter` (no filtering at checkpoints, a
    preprocessing that works word by word such as none), `WordExtractor` (left and right frequencies, no intermediate pruning), `NewsNounExtractor` and
    `LRGraph` count the same. -/
theorem C110_counters (A B : List Str) (t u : Str) (c : Char) (hc : c.toNat ∈ Spec.whitespace) :
    (∀ p : EC.Params, splitWs (p.preprocess (t ++ c :: u)) = splitWs (p.preprocess t) ++ splitWs (p.preprocess u) →
      NoCheckpoints p (A.length + B.length + 2) →
      ∃ s s', EC.construct p (some (A ++ [t, u] ++ B)) = .ok s ∧ EC.construct p (some (A ++ [t ++ c :: u] ++ B)) = .ok s' ∧
        ∀ e, EC.getitem s' e = EC.getitem s e) ∧
    (∀ (p : WX.Params) (k : Int), k ≤ 0 →
      ∃ s s', WX.train p {} (A ++ [t, u] ++ B) k = .ok s ∧ WX.train p {} (A ++ [t ++ c :: u] ++ B) k = .ok s' ∧
        ∀ w, WX.frequency s' w = WX.frequency s w) ∧
    (∀ (p : NewsNoun.Params) (s0 : NewsNoun.State),
      ∃ s s', NewsNoun.train p s0 (A ++ [t, u] ++ B) = .ok { s0 with trained := some s } ∧
        NewsNoun.train p s0 (A ++ [t ++ c :: u] ++ B) = .ok { s0 with trained := some s' } ∧
        ∀ l, NewsNoun.lFrequency s' l = NewsNoun.lFrequency s l) ∧
    (∀ (lMax rMax : Int) (s s' : LR.State), LR.construct [] (A ++ [t, u] ++ B) lMax rMax = .ok s → LR.construct [] (A ++ [t ++ c :: u] ++ B) lMax rMax = .ok s' →
      ∀ l r n, (r, n) ∈ LR.getR s' l 0 ↔ (r, n) ∈ LR.getR s l 0) := by
  have hs := splitWs_joined t u c hc
  have htok : (A ++ [t ++ c :: u] ++ B).flatMap splitWs = (A ++ [t, u] ++ B).flatMap splitWs := by
    simp only [List.flatMap_append, List.flatMap_cons, List.flatMap_nil, List.append_nil, hs]
  have n1 : A ++ [t, u] ++ B ≠ [] := by simp
  have n2 : A ++ [t ++ c :: u] ++ B ≠ [] := by simp
  refine ⟨?_, ?_, ?_, ?_⟩
  · intro p hp hno
    obtain ⟨s, e, _, g, _⟩ := C21_exact p (A ++ [t, u] ++ B) n1 (by
      have : (A ++ [t, u] ++ B).length = A.length + B.length + 2 := by simp; omega
      rw [this]; exact hno)
    obtain ⟨s', e', _, g', _⟩ := C21_exact p (A ++ [t ++ c :: u] ++ B) n2 (by
      have : (A ++ [t ++ c :: u] ++ B).length = A.length + B.length + 1 := by simp; omega
      rw [this]; unfold NoCheckpoints at *; omega)
    have : eojeolsOf p.preprocess (A ++ [t ++ c :: u] ++ B) = eojeolsOf p.preprocess (A ++ [t, u] ++ B) := by
      unfold eojeolsOf
      simp only [List.flatMap_append, List.flatMap_cons, List.flatMap_nil, List.append_nil, hp]
    exact ⟨s, s', e, e', fun x => by rw [g', g, this]⟩
  · intro p k hk
    obtain ⟨s, e, g⟩ := C30_counts p {} (A ++ [t, u] ++ B) k true n1 hk (.inr rfl)
    obtain ⟨s', e', g'⟩ := C30_counts p {} (A ++ [t ++ c :: u] ++ B) k true n2 hk (.inr rfl)
    have : tokensOf (A ++ [t ++ c :: u] ++ B) = tokensOf (A ++ [t, u] ++ B) := htok
    refine ⟨s, s', e, e', fun w => ?_⟩
    have h1 := g w; have h2 := g' w
    rw [this] at h2
    unfold WX.frequency Dict.getD
    rw [h1.1, h1.2.1, h2.1, h2.2.1]
  · intro p s0
    obtain ⟨s, e, g, _⟩ := C77_train p s0 (A ++ [t, u] ++ B) n1
    obtain ⟨s', e', g', _⟩ := C77_train p s0 (A ++ [t ++ c :: u] ++ B) n2
    refine ⟨s, s', e, e', fun l => ?_⟩
    rw [g l, g' l]
    unfold NewsNounSpec.corpusOf
    rw [htok]
  · intro lMax rMax s s' e e' l r n
    rw [C26_sents_exact _ n2 lMax rMax s' e' l r n, C26_sents_exact _ n1 lMax rMax s e l r n, htok]

private theorem adjacent_cons (b : Str × Str) (x : Str) (l : List Str) :
    adjacent b (x :: l) = adjacent b l + (if x = b.1 ∧ l.head? = some b.2 then 1 else 0) := by
  unfold adjacent
  rw [List.length_cons, List.range_succ_eq_map, List.countP_cons, List.countP_map]
  simp only [Function.comp_def, List.getElem?_cons_succ, List.getElem?_cons_zero, Option.some.injEq, List.head?_eq_getElem?, decide_eq_true_eq]

private theorem adjacent_append (b : Str × Str) (y : Str) (v : List Str) : ∀ (l : List Str) (z : Str),
    adjacent b ((l ++ [z]) ++ y :: v) = adjacent b (l ++ [z]) + adjacent b (y :: v) + (if z = b.1 ∧ y = b.2 then 1 else 0)
  | [], z => by
    rw [List.nil_append, List.singleton_append, adjacent_cons b z (y :: v), adjacent_cons b z []]
    have : adjacent b [] = 0 := rfl
    simp [this]
  | x :: l, z => by
    have ih := adjacent_append b y v l z
    rw [List.cons_append, List.cons_append, adjacent_cons, adjacent_cons b x (l ++ [z]), ih]
    have : (l ++ [z] ++ y :: v).head? = (l ++ [z]).head? := by cases l <;> rfl
    rw [this]; omega

/-- **C110** `Bigram` does see it: with two sentences written on one line (neither of them empty) it counts every pair as before, and the pair made of the last word of the first
    and the first word of the second once more. -/
theorem C110_bigram (p : BG.Params) (A B : List Str) (t u s : Str) (x y : Str) (v w : List Str) (ht : p.tokenizer t = v ++ [x]) (hu : p.tokenizer u = y :: w)
    (hj : p.tokenizer s = p.tokenizer t ++ p.tokenizer u) (hcp : p.checkpoint ≤ 0 ∨ ((A.length + B.length + 2 : Nat) : Int) ≤ p.checkpoint) (hm : p.minFrequency ≤ 1) (topk : Int) :
    ∃ d d', BG.extractByFrequency (BG.train p (A ++ [t, u] ++ B)).1 topk 0 = .ok d ∧ BG.extractByFrequency (BG.train p (A ++ [s] ++ B)).1 topk 0 = .ok d' ∧
      ∀ b, (Dict.getD d' b (0, 0)).1 = (Dict.getD d b (0, 0)).1 + if b = (x, y) then 1 else 0 := by
  obtain ⟨d, e, g⟩ := C33_counts p (A ++ [t, u] ++ B) (by
    have : (A ++ [t, u] ++ B).length = A.length + B.length + 2 := by simp; omega
    rw [this]; exact hcp) topk 0
  obtain ⟨d', e', g'⟩ := C33_counts p (A ++ [s] ++ B) (by
    have : (A ++ [s] ++ B).length = A.length + B.length + 1 := by simp; omega
    rw [this]; omega) topk 0
  have value : ∀ (x : Option (Nat × Nat)) (n : Nat), x = (if 0 < n ∧ p.minFrequency ≤ n ∧ (0 : Int) ≤ n then some (n, n) else none) →
      (x.getD (0, 0)).1 = n := by
    intro x n h
    rw [h]
    by_cases h0 : 0 < n
    · have h1 : p.minFrequency ≤ n := by omega
      simp [h0, h1]
    · have : n = 0 := by omega
      subst this; simp
  refine ⟨d, d', e, e', fun b => ?_⟩
  unfold Dict.getD
  rw [value _ _ (g b), value _ _ (g' b)]
  unfold bigramCount
  simp only [List.map_append, List.sum_append, List.map_cons, List.map_nil, List.sum_cons, List.sum_nil, hj]
  rw [ht, hu, adjacent_append]
  have : (x = b.1 ∧ y = b.2) ↔ b = (x, y) := by
    constructor
    · rintro ⟨h1, h2⟩; rw [h1, h2]
    · intro h; rw [h]; exact ⟨rfl, rfl⟩
  simp only [this]
  omega

/-! ### concrete cases -/

example : (' ' : Char).toNat ∈ Spec.whitespace ∧ ('\n' : Char).toNat ∈ Spec.whitespace ∧ (Char.ofNat 0x3000).toNat ∈ Spec.whitespace := by decide
example : MaxScore.tokenize [("나라".toList, 1)] 10 0 "우리나라 나라의\n".toList = .ok ["우리".toList, "나라".toList, "나라".toList, "의".toList] := by decide +kernel
example : TokNorm.normalize (fun c => c.isAlphanum) "ab \n".toList 2 = .ok "ab".toList ∧ TokNorm.normalize (fun c => c.isAlphanum) "\tcccc d".toList 2 = .ok "cc d".toList ∧
    TokNorm.normalize (fun c => c.isAlphanum) "ab \n \tcccc d".toList 2 = .ok "ab cc d".toList := by decide +kernel
/-- the tagger raises on the eojeol whose evaluator finds nothing, wherever it stands -/
example : PT.tagFlat (fun e => if e = "b".toList then none else some []) none "a b".toList = .error .typeError := by decide +kernel
private def pairs1 (sents : List Str) : Dict (Str × Str) (Nat × Nat) :=
  match BG.extractByFrequency (BG.train { minFrequency := 1, checkpoint := 0 } sents).1 (-1) 0 with | .ok d => d | .error _ => []
example : pairs1 ["a b".toList, "a b".toList] = [(("a".toList, "b".toList), (2, 2))] ∧
    pairs1 ["a b a b".toList] = [(("a".toList, "b".toList), (2, 2)), (("b".toList, "a".toList), (1, 1))] := by decide +kernel

end Props

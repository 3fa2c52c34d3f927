import Mathlib.Tactic.Linarith
import Mathlib.Tactic.Ring
import Verif.Props.C13
import Verif.Proofs.MaxLR
import Verif.Model.NounTokenizer
import Verif.Model.Postagger
/-! C113: which changes of the scores leave the result as it is. -/
namespace Props
open Py

/-- the score table with every score `x` replaced by `f x` -/
def rescaled (f : Rat → Rat) (d : Dict Str Rat) : Dict Str Rat := d.map (fun e => (e.1, f e.2))

private theorem get?_rescaled (f : Rat → Rat) (d : Dict Str Rat) (w : Str) : Dict.get? (rescaled f d) w = (Dict.get? d w).map f := by
  induction d with
  | nil => rfl
  | cons e d ih =>
    obtain ⟨k, x⟩ := e
    show (if k = w then some (f x) else Dict.get? (rescaled f d) w) = _
    rw [ih]
    show _ = Option.map f (if k = w then some x else Dict.get? d w)
    by_cases h : k = w
    · rw [if_pos h, if_pos h]; rfl
    · rw [if_neg h, if_neg h]

private theorem getD_rescaled (f : Rat → Rat) (d : Dict Str Rat) (w : Str) (x : Rat) : Dict.getD (rescaled f d) w (f x) = f (Dict.getD d w x) := by
  unfold Dict.getD
  rw [get?_rescaled]
  cases Dict.get? d w <;> rfl

private theorem mono_lt {f : Rat → Rat} (hf : ∀ x y, x < y → f x < f y) (x y : Rat) : f x < f y ↔ x < y := by
  refine ⟨fun h => ?_, hf x y⟩
  rcases lt_trichotomy x y with h' | h' | h'
  · exact h'
  · rw [h'] at h; exact absurd h (lt_irrefl _)
  · exact absurd (h.trans (hf y x h')) (lt_irrefl _)

private theorem mono_eq {f : Rat → Rat} (hf : ∀ x y, x < y → f x < f y) (x y : Rat) : f x = f y ↔ x = y := by
  refine ⟨fun h => ?_, fun h => by rw [h]⟩
  rcases lt_trichotomy x y with h' | h' | h'
  · exact absurd (hf x y h') (by rw [h]; exact lt_irrefl _)
  · exact h'
  · exact absurd (hf y x h') (by rw [h]; exact lt_irrefl _)

private theorem mono_le {f : Rat → Rat} (hf : ∀ x y, x < y → f x < f y) (x y : Rat) : f x ≤ f y ↔ x ≤ y := by
  rw [← not_lt, ← not_lt, mono_lt hf]

/-! ### MaxScoreTokenizer -/

/-- the token with its score replaced -/
def rescoredTok (f : Rat → Rat) (t : MaxScore.Tok) : MaxScore.Tok := { t with score := f t.score }

section
variable {f : Rat → Rat} (hf : ∀ x y, x < y → f x < f y) (scores : Dict Str Rat) (ds : Rat)

private theorem cands_rescaled (token : Str) (rangeL length : Nat) :
    MaxScore.candidates (rescaled f scores) (f ds) token rangeL length = (MaxScore.candidates scores ds token rangeL length).map (rescoredTok f) := by
  unfold MaxScore.candidates
  rw [List.map_flatMap, List.flatMap_def, List.flatMap_def]
  congr 1
  apply List.map_congr_left
  intro b _
  rw [List.map_filterMap]
  congr 1
  funext r
  dsimp only
  split
  · rfl
  · rw [getD_rescaled]; rfl

include hf in
private theorem rank_rescored (x y : MaxScore.Tok) : MaxScore.rankLe (rescoredTok f x) (rescoredTok f y) = MaxScore.rankLe x y := by
  unfold MaxScore.rankLe rescoredTok
  rw [Bool.eq_iff_iff, decide_eq_true_iff, decide_eq_true_iff]
  show (f y.score < f x.score ∨ (f y.score = f x.score ∧ _)) ↔ _
  rw [mono_lt hf, mono_eq hf]

private theorem findGo_rescored (n : Nat) (l : List MaxScore.Tok) : MaxScore.findGo n (l.map (rescoredTok f)) = (MaxScore.findGo n l).map (rescoredTok f) := by
  induction n generalizing l with
  | zero => rfl
  | succ n ih =>
    cases l with
    | nil => rfl
    | cons c l =>
      rw [List.map_cons, MaxScore.findGo, MaxScore.findGo, List.map_cons, List.filter_map]
      congr 1
      rw [← ih]
      rfl

private theorem begin_rescored (l : List MaxScore.Tok) : sorted MaxScore.beginLe (l.map (rescoredTok f)) = (sorted MaxScore.beginLe l).map (rescoredTok f) := by
  rw [sorted_map]; rfl

include hf in
private theorem find_rescaled (token : Str) (rangeL length : Nat) :
    MaxScore.find (MaxScore.initCands (rescaled f scores) (f ds) token rangeL length) = (MaxScore.find (MaxScore.initCands scores ds token rangeL length)).map (rescoredTok f) := by
  unfold MaxScore.initCands MaxScore.find
  rw [cands_rescaled, sorted_map]
  rw [show (fun a b => MaxScore.rankLe (rescoredTok f a) (rescoredTok f b)) = MaxScore.rankLe from by funext a b; exact rank_rescored hf a b]
  rw [findGo_rescored, begin_rescored]

private theorem inter_rescored (token : Str) (l : List MaxScore.Tok) :
    MaxScore.addInter (f ds) token (l.map (rescoredTok f)) = (MaxScore.addInter ds token l).map (rescoredTok f) := by
  unfold MaxScore.addInter
  rw [List.map_filterMap, ← List.map_tail, List.zip_map, List.filterMap_map]
  congr 1
  funext p
  obtain ⟨a, b⟩ := p
  show (if a.e = b.b then none else some _) = Option.map _ (if a.e = b.b then none else some _)
  split <;> rfl

include hf in
private theorem recursive_rescaled (maxLength : Nat) (token : Str) :
    MaxScore.recursiveTokenize (rescaled f scores) maxLength (f ds) token = (MaxScore.recursiveTokenize scores maxLength ds token).map (List.map (rescoredTok f)) := by
  unfold MaxScore.recursiveTokenize
  dsimp only
  split
  · rfl
  · rw [find_rescaled hf]
    generalize MaxScore.find (MaxScore.initCands scores ds token (min maxLength token.length) token.length) = R
    rw [List.head?_map, List.getLast?_map, inter_rescored]
    cases hh : R.head? with
    | none => rfl
    | some a =>
      cases hl : R.getLast? with
      | none => rfl
      | some z =>
        dsimp only [Option.map]
        have hlast : MaxScore.addLast (rescaled f scores) (f ds) token (rescoredTok f z) = (MaxScore.addLast scores ds token z).map (rescoredTok f) := by
          unfold MaxScore.addLast
          dsimp only
          rw [getD_rescaled]; rfl
        have hfirst : MaxScore.addFirst (rescaled f scores) (f ds) token (rescoredTok f a) = (MaxScore.addFirst scores ds token a).map (rescoredTok f) := by
          unfold MaxScore.addFirst
          dsimp only
          rw [getD_rescaled]; rfl
        rw [hlast, hfirst]
        show Except.ok _ = Except.ok _
        congr 1
        rw [← begin_rescored]
        congr 1
        show _ = List.map (rescoredTok f) (R ++ _)
        show List.map (rescoredTok f) R ++ (if a.b ≠ 0 then (if z.e ≠ token.length then _ else _) ++ _ else if z.e ≠ token.length then _ else _) = _
        by_cases h1 : a.b = 0 <;> by_cases h2 : z.e = token.length <;> simp [h1, h2]
end

private theorem mapM_after {α β γ : Type} (g : β → γ) (p : α → PyM γ) (q : α → PyM β) (h : ∀ a, p a = (q a).map g) (l : List α) : l.mapM p = (l.mapM q).map (List.map g) := by
  induction l with
  | nil => rfl
  | cons a l ih =>
    rw [List.mapM_cons, List.mapM_cons, h a, ih]
    cases q a with
    | error e => rfl
    | ok b => cases l.mapM q <;> rfl

/-- C113 (a): MaxScoreTokenizer only looks at the order of the scores. Replacing every score, and the default score, by its image under a strictly
    increasing function gives the same tokens in the same places (or the same exception), with the images as scores. -/
theorem C113_max_score (f : Rat → Rat) (hf : ∀ x y, x < y → f x < f y) (scores : Dict Str Rat) (maxLength : Nat) (ds : Rat) (sentence : Str) :
    MaxScore.tokenize (rescaled f scores) maxLength (f ds) sentence = MaxScore.tokenize scores maxLength ds sentence ∧
    MaxScore.tokenizeSpans (rescaled f scores) maxLength (f ds) sentence =
      (MaxScore.tokenizeSpans scores maxLength ds sentence).map (List.map (List.map (fun t => { t with score := f t.score }))) := by
  have h2 : MaxScore.tokenizeSpans (rescaled f scores) maxLength (f ds) sentence =
      (MaxScore.tokenizeSpans scores maxLength ds sentence).map (List.map (List.map (rescoredTok f))) :=
    mapM_after _ _ _ (fun w => recursive_rescaled hf scores ds maxLength w) _
  refine ⟨?_, h2⟩
  unfold MaxScore.tokenize
  rw [h2]
  cases MaxScore.tokenizeSpans scores maxLength ds sentence with
  | error e => rfl
  | ok tss =>
    show Except.ok _ = Except.ok _
    congr 1
    rw [List.flatMap_map]
    congr 1
    funext t
    rw [List.map_map]; rfl

/-! ### NounMatchTokenizer -/

private theorem concat_words (f : Rat → Rat) (eojeol : Str) (ws : List MaxScore.Tok) : ∀ (b e : Nat) (s s' : Rat),
    (NounTok.concatGo eojeol (ws.map (rescoredTok f)) b e s).map (·.word) = (NounTok.concatGo eojeol ws b e s').map (·.word) := by
  induction ws with
  | nil =>
    intro b e s s'
    show (if e > b then _ else _ : List MaxScore.Tok).map _ = (if e > b then _ else _ : List MaxScore.Tok).map _
    split <;> rfl
  | cons w ws ih =>
    intro b e s s'
    rw [List.map_cons]
    show (if e = w.b then _ else _ : List MaxScore.Tok).map _ = (if e = w.b then _ else _ : List MaxScore.Tok).map _
    split
    · exact ih _ _ _ _
    · rw [List.map_cons, List.map_cons]
      congr 1
      exact ih _ _ _ _

/-- C113 (b): NounMatchTokenizer only looks at the order of the scores and at which are positive. -/
theorem C113_noun_match (f : Rat → Rat) (hf : ∀ x y, x < y → f x < f y) (h0 : f 0 = 0) (scores : Dict Str Rat) (sentence : Str) (compose : Bool) :
    NounTok.matchTokenize (rescaled f scores) sentence compose = NounTok.matchTokenize scores sentence compose := by
  have hone : ∀ w, (NounTok.matchEojeol (rescaled f scores) compose w).map (List.map (·.word)) = (NounTok.matchEojeol scores compose w).map (List.map (·.word)) := by
    intro w
    unfold NounTok.matchEojeol
    have h2 := (C113_max_score f hf scores 10 0 w).2
    rw [h0] at h2
    rw [h2]
    cases MaxScore.tokenizeSpans scores 10 0 w with
    | error e => rfl
    | ok tss =>
      cases tss with
      | nil => rfl
      | cons ts tss =>
        show Except.ok _ = Except.ok _
        congr 1
        have hfil : (ts.map (fun t => { t with score := f t.score } : MaxScore.Tok → MaxScore.Tok)).filter (fun w => decide (w.score > 0)) =
            (ts.filter (fun w => decide (w.score > 0))).map (rescoredTok f) := by
          rw [List.filter_map]
          congr 1
          apply List.filter_congr
          intro t _
          show decide (0 < f t.score) = decide (0 < t.score)
          have : 0 < f t.score ↔ 0 < t.score := by
            have := mono_lt hf 0 t.score
            rwa [h0] at this
          exact decide_eq_decide.2 this
        have key : ∀ ws : List MaxScore.Tok, (if compose = true then NounTok.concatenate w (ws.map (rescoredTok f)) else ws.map (rescoredTok f)).map (·.word) =
            (if compose = true then NounTok.concatenate w ws else ws).map (·.word) := by
          intro ws
          split
          · exact concat_words f w ws 0 0 0 0
          · rw [List.map_map]; rfl
        have := key (ts.filter (fun w => decide (w.score > 0)))
        rw [← hfil] at this
        exact this
  have hall : ∀ ws : List Str, (ws.mapM (NounTok.matchEojeol (rescaled f scores) compose)).map (fun s => s.flatten.map (·.word)) =
      (ws.mapM (NounTok.matchEojeol scores compose)).map (fun s => s.flatten.map (·.word)) := by
    intro ws
    induction ws with
    | nil => rfl
    | cons w ws ih =>
      have h1 := hone w
      rw [List.mapM_cons, List.mapM_cons]
      generalize NounTok.matchEojeol (rescaled f scores) compose w = x at *
      generalize NounTok.matchEojeol scores compose w = y at *
      generalize List.mapM (NounTok.matchEojeol (rescaled f scores) compose) ws = xs at *
      generalize List.mapM (NounTok.matchEojeol scores compose) ws = ys at *
      cases x with
      | error e =>
        cases y with
        | error e' => cases h1; rfl
        | ok b => cases h1
      | ok a =>
        cases y with
        | error e' => cases h1
        | ok b =>
          have h1 := Except.ok.inj h1
          cases xs with
          | error e =>
            cases ys with
            | error e' => cases ih; rfl
            | ok b => cases ih
          | ok as =>
            cases ys with
            | error e' => cases ih
            | ok bs =>
              have ih : as.flatten.map (·.word) = bs.flatten.map (·.word) := Except.ok.inj ih
              have h1 : a.map (·.word) = b.map (·.word) := h1
              refine congrArg Except.ok ?_
              show List.map _ (a :: as).flatten = List.map _ (b :: bs).flatten
              rw [List.flatten_cons, List.flatten_cons, List.map_append, List.map_append, ih, h1]
  unfold NounTok.matchTokenize NounTok.matchSpans
  have := hall (((splitWs sentence).map strip).filter (fun e => e ≠ []))
  generalize List.mapM (NounTok.matchEojeol (rescaled f scores) compose) _ = xs at *
  generalize List.mapM (NounTok.matchEojeol scores compose) _ = ys at *
  cases xs with
  | error e =>
    cases ys with
    | error e' => cases this; rfl
    | ok b => cases this
  | ok as =>
    cases ys with
    | error e' => cases this
    | ok bs =>
      have h : as.flatten.map (·.word) = bs.flatten.map (·.word) := Except.ok.inj this
      show Except.ok _ = Except.ok _
      rw [h]

/-! ### LTokenizer -/

private theorem pairs_of_best {scores scores' : Dict Str Rat} {ds tol ds' tol' : Rat} (sentence : Str)
    (h : ∀ w l r, BestCut scores ds tol w l r → BestCut scores' ds' tol' w l r) :
    LTok.tokenizePairs scores' ds' tol' sentence = LTok.tokenizePairs scores ds tol sentence := by
  obtain ⟨ps, h1, h2⟩ := C13_pairs_lossless scores ds tol sentence
  obtain ⟨ps', h1', h2'⟩ := C13_pairs_lossless scores' ds' tol' sentence
  rw [h1, h1']
  congr 1
  generalize splitWs sentence = ws at h2 h2'
  clear h1 h1'
  induction h2 generalizing ps' with
  | nil => cases h2'; rfl
  | cons a _ ih =>
    cases h2' with
    | cons b g =>
      rw [ih _ g]
      obtain ⟨e1, e2⟩ := C13_unique _ _ _ _ _ _ _ _ b (h _ _ _ a)
      congr 1
      exact Prod.ext e1 e2

/-- C113 (c): without tolerance LTokenizer only looks at the order of the scores. -/
theorem C113_ltokenizer (f : Rat → Rat) (hf : ∀ x y, x < y → f x < f y) (scores : Dict Str Rat) (ds tol : Rat) (ht : tol ≤ 0) (sentence : Str) :
    LTok.tokenizePairs (rescaled f scores) (f ds) tol sentence = LTok.tokenizePairs scores ds tol sentence := by
  refine pairs_of_best sentence (fun w l r h => ⟨h.whole, h.short, h.two, ?_, ?_⟩)
  · intro hl a b hw ha
    have := h.good hl a b hw ha
    rw [getD_rescaled, getD_rescaled]
    rw [max_eq_right ht, add_zero] at this ⊢
    exact (mono_le hf _ _).2 this
  · intro hl a b hw ha
    obtain ⟨a', b', q1, q2, q3⟩ := h.longest hl a b hw ha
    refine ⟨a', b', q1, q2, ?_⟩
    rw [getD_rescaled, getD_rescaled]
    rw [max_eq_right ht, add_zero] at q3 ⊢
    exact (mono_lt hf _ _).2 q3

/-- C113 (d): with any tolerance, multiplying scores, default score and tolerance by the same positive number, and adding a number to the scores and the
    default score, changes nothing. -/
theorem C113_ltokenizer_scale (k c : Rat) (hk : 0 < k) (scores : Dict Str Rat) (ds tol : Rat) (sentence : Str) :
    LTok.tokenizePairs (rescaled (fun x => k * x + c) scores) (k * ds + c) (k * tol) sentence = LTok.tokenizePairs scores ds tol sentence := by
  have hmax : max (k * tol) 0 = k * max tol 0 := by
    rcases le_total tol 0 with h | h
    · rw [max_eq_right h, max_eq_right (by nlinarith)]; ring
    · rw [max_eq_left h, max_eq_left (by nlinarith)]
  have hget : ∀ w, Dict.getD (rescaled (fun x => k * x + c) scores) w (k * ds + c) = k * Dict.getD scores w ds + c := fun w => getD_rescaled (fun x => k * x + c) scores w ds
  refine pairs_of_best sentence (fun w l r h => ⟨h.whole, h.short, h.two, ?_, ?_⟩)
  · intro hl a b hw ha
    have := h.good hl a b hw ha
    rw [hget, hget, hmax]
    nlinarith
  · intro hl a b hw ha
    obtain ⟨a', b', q1, q2, q3⟩ := h.longest hl a b hw ha
    refine ⟨a', b', q1, q2, ?_⟩
    rw [hget, hget, hmax]
    nlinarith

/-- C113 (c): with a positive tolerance the order alone does not decide: doubling the scores changes the cut. -/
theorem C113_tolerance_violated :
    LTok.tokenizePairs [("파스".toList, 3/10), ("파스타".toList, 2/10)] 0 (15/100) "파스타".toList = .ok [("파스타".toList, [])] ∧
    LTok.tokenizePairs (rescaled (fun x => 2 * x) [("파스".toList, 3/10), ("파스타".toList, 2/10)]) 0 (15/100) "파스타".toList = .ok [("파스".toList, "타".toList)] := by
  refine ⟨by decide +kernel, by decide +kernel⟩

example : (∀ x y : Rat, x < y → (fun x => 3 * x) x < (fun x => 3 * x) y) ∧ (fun x : Rat => 3 * x) 0 = 0 ∧
    MaxScore.tokenize (rescaled (fun x => 3 * x) [("데이터".toList, 1), ("이터분석".toList, 2)]) 10 0 "빅데이터분석".toList = .ok ["빅데".toList, "이터분석".toList] := by
  refine ⟨fun x y h => ?_, by decide +kernel, by decide +kernel⟩
  show 3 * x < 3 * y
  linarith

/-! ### the taggers -/

/-- all weights of the eojeol evaluator multiplied by `k` -/
def scaledE (k : Rat) (w : PT.EWeights) : PT.EWeights :=
  ⟨k * w.numNouns, k * w.numWords, k * w.hasNoun, k * w.hasUnknown, k * w.isAdverbRepeat, k * w.isCompoundNoun, k * w.isNounJosa, k * w.isANoun⟩

/-- all weights and preferences of the LR evaluator multiplied by `k` -/
def scaledL (k : Rat) (w : PT.LWeights) : PT.LWeights :=
  ⟨k * w.isNounPhrase, k * w.lrAreKnown, k * w.isVerb, k * w.isAdjective, k * w.lLen, k * w.rLen, k * w.lIsASyllable,
    w.preference.map (fun e => (e.1, rescaled (fun x => k * x) e.2))⟩

private theorem select_order {α : Type} {f : Rat → Rat} (hf : ∀ x y, x < y → f x < f y) (ev : α → Rat) (cs : List α) :
    PT.selectBest (fun c => f (ev c)) cs = PT.selectBest ev cs := by
  unfold PT.selectBest
  have h1 : cs.map (fun c => (c, f (ev c))) = (cs.map (fun c => (c, ev c))).map (fun p => (p.1, f p.2)) := by rw [List.map_map]; rfl
  have h2 : (fun a b : α × Rat => (fun x y : α × Rat => decide (-x.2 ≤ -y.2)) ((fun p : α × Rat => (p.1, f p.2)) a) ((fun p : α × Rat => (p.1, f p.2)) b)) =
      (fun x y : α × Rat => decide (-x.2 ≤ -y.2)) := by
    funext a b
    show decide (-f a.2 ≤ -f b.2) = decide (-a.2 ≤ -b.2)
    refine (@decide_eq_decide _ _ _ _).2 ?_
    rw [neg_le_neg_iff, neg_le_neg_iff, mono_le hf]
  rw [h1, sorted_map, h2, List.head?_map, Option.map_map]
  rfl

private theorem removeGo_order (f : Rat → Rat) (n : Nat) (l : List (PT.LR × Rat)) (best : List PT.LR) :
    PT.removeGo n (l.map (fun p => (p.1, f p.2))) best = PT.removeGo n l best := by
  induction n generalizing l best with
  | zero => cases l <;> rfl
  | succ n ih =>
    cases l with
    | nil => rfl
    | cons x l =>
      rw [List.map_cons, PT.removeGo, PT.removeGo, List.filter_map, ih]
      rfl

private theorem selectLR_order {f : Rat → Rat} (hf : ∀ x y, x < y → f x < f y) (ev : PT.LR → Rat) (cs : List PT.LR) :
    PT.selectBestLR (fun c => f (ev c)) cs = PT.selectBestLR ev cs := by
  unfold PT.selectBestLR PT.removeOverlapped
  have h1 : cs.map (fun c => (c, f (ev c))) = (cs.map (fun c => (c, ev c))).map (fun p => (p.1, f p.2)) := by rw [List.map_map]; rfl
  have h2 : (fun a b : PT.LR × Rat => (fun x y : PT.LR × Rat => decide (-x.2 ≤ -y.2)) ((fun p : PT.LR × Rat => (p.1, f p.2)) a) ((fun p : PT.LR × Rat => (p.1, f p.2)) b)) =
      (fun x y : PT.LR × Rat => decide (-x.2 ≤ -y.2)) := by
    funext a b
    show decide (-f a.2 ≤ -f b.2) = decide (-a.2 ≤ -b.2)
    refine (@decide_eq_decide _ _ _ _).2 ?_
    rw [neg_le_neg_iff, neg_le_neg_iff, mono_le hf]
  rw [h1, sorted_map, h2, removeGo_order, List.length_map]

private theorem evaluateE_scaled (k : Rat) (w : PT.EWeights) (c : List PT.LR) : PT.evaluateEojeol (scaledE k w) c = k * PT.evaluateEojeol w c := by
  unfold PT.evaluateEojeol scaledE
  dsimp only
  ring

private theorem prefer_scaled (k : Rat) (p : Dict Str (Dict Str Rat)) (tag : Option Str) (word : Str) :
    PT.prefer (p.map (fun e => (e.1, rescaled (fun x => k * x) e.2))) tag word = k * PT.prefer p tag word := by
  cases tag with
  | none => show (0 : Rat) = k * 0; ring
  | some t =>
    unfold PT.prefer
    dsimp only
    have : Dict.getD (p.map (fun e => (e.1, rescaled (fun x => k * x) e.2))) t [] = rescaled (fun x => k * x) (Dict.getD p t []) := by
      unfold Dict.getD
      induction p with
      | nil => rfl
      | cons e p ih =>
        obtain ⟨a, d⟩ := e
        show Option.getD (if a = t then some _ else Dict.get? (p.map _) t) [] = rescaled _ (Option.getD (if a = t then some d else Dict.get? p t) [])
        by_cases h : a = t
        · rw [if_pos h, if_pos h]; rfl
        · rw [if_neg h, if_neg h]; exact ih
    rw [this]
    have h := getD_rescaled (fun x => k * x) (Dict.getD p t []) word 0
    rw [mul_zero] at h
    exact h

private theorem evaluateL_scaled (k : Rat) (w : PT.LWeights) (c : PT.LR) : PT.evaluateLR (scaledL k w) c = k * PT.evaluateLR w c := by
  unfold PT.evaluateLR
  rw [show (scaledL k w).preference = w.preference.map (fun e => (e.1, rescaled (fun x => k * x) e.2)) from rfl, prefer_scaled, prefer_scaled]
  unfold scaledL
  dsimp only
  ring

/-- C113 (e): the choice of the taggers only depends on the order of the evaluations of the candidates; so with the evaluators of the package, multiplying all
    weights (and preferences) by a positive number leaves every choice as it is. -/
theorem C113_tagger (f : Rat → Rat) (hf : ∀ x y, x < y → f x < f y) (k : Rat) (hk : 0 < k) (evE : List PT.LR → Rat) (evL : PT.LR → Rat) (we : PT.EWeights) (wl : PT.LWeights)
    (cs : List (List PT.LR)) (ls : List PT.LR) :
    PT.selectBest (fun c => f (evE c)) cs = PT.selectBest evE cs ∧
    PT.selectBestLR (fun c => f (evL c)) ls = PT.selectBestLR evL ls ∧
    PT.selectBest (PT.evaluateEojeol (scaledE k we)) cs = PT.selectBest (PT.evaluateEojeol we) cs ∧
    PT.selectBestLR (PT.evaluateLR (scaledL k wl)) ls = PT.selectBestLR (PT.evaluateLR wl) ls := by
  have hmul : ∀ x y : Rat, x < y → k * x < k * y := fun x y h => mul_lt_mul_of_pos_left h hk
  refine ⟨select_order hf evE cs, selectLR_order hf evL ls, ?_, ?_⟩
  · rw [← select_order hmul (PT.evaluateEojeol we) cs]
    congr 1
    funext c
    exact evaluateE_scaled k we c
  · rw [← selectLR_order hmul (PT.evaluateLR wl) ls]
    congr 1
    funext c
    exact evaluateL_scaled k wl c

example : PT.selectBest (PT.evaluateEojeol (scaledE 7 {})) [[⟨"너".toList, none, [], none, 0, 1, 1⟩], [⟨"너".toList, some "Noun".toList, [], none, 0, 1, 1⟩]] =
    some [⟨"너".toList, some "Noun".toList, [], none, 0, 1, 1⟩] := by decide +kernel

end Props

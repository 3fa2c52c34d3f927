import Verif.Props.C14_C15
import Verif.Props.C13
import Verif.Props.C18_C19
import Mathlib.Tactic.Linarith
/-!
C115: raising scores and adding words. As long as none of the words whose score was raised (or which were added) comes out, the output is what it was.
Read backwards: lowering the scores of words that do not come out (or removing such words) changes nothing.
-/
namespace Props
open Py MaxScore Spec

/-- the table `new` gives every word at least the score of `old` (words that are not listed have the default score) -/
def Raised (ds : Rat) (old new : Dict Str Rat) : Prop := ∀ v, Dict.getD old v ds ≤ Dict.getD new v ds

/-- the two tables score the word differently -/
def Rescored (ds : Rat) (old new : Dict Str Rat) (v : Str) : Prop := Dict.getD old v ds ≠ Dict.getD new v ds

private theorem pick_lower {better better' : Nat × Nat → Nat × Nat → Prop} {n : Nat} {E : Nat × Nat → Prop} {l : List (Nat × Nat)}
    (h : GreedyPick better' n E l) (hb : ∀ x ∈ l, ∀ y, better' x y → better x y) : GreedyPick better n E l := by
  induction h with
  | full E => exact .full E
  | empty n E h => exact .empty n E h
  | pick n E x rest h1 h2 _ ih =>
    exact .pick n E x rest h1 (fun y hy => hb x List.mem_cons_self y (h2 y hy)) (ih (fun z hz => hb z (List.mem_cons_of_mem _ hz)))

private abbrev spanOf (t : Tok) : Str × Nat × Nat := (t.word, t.b, t.e)

private theorem tiles_lower {w : Str} : ∀ (l : List Tok) (i j : Nat), Tiles w i j (l.map spanOf) → ∀ t ∈ l, i ≤ t.b
  | [], _, _, _, t, ht => by cases ht
  | u :: l, i, j, h, t, ht => by
    cases h with
    | cons h1 h2 h3 h4 =>
      rcases List.mem_cons.1 ht with rfl | ht
      · exact Nat.le_refl _
      · have := tiles_lower l _ _ h4 t ht
        omega

private theorem toks_ext {w : Str} : ∀ (l l' : List Tok) (i j j' : Nat), Tiles w i j (l.map spanOf) → Tiles w i j' (l'.map spanOf) → (∀ t, t ∈ l ↔ t ∈ l') → l = l'
  | [], l', _, _, _, _, _, hm => by
    cases l' with
    | nil => rfl
    | cons t l' => exact absurd ((hm t).2 List.mem_cons_self) (List.not_mem_nil)
  | t :: l, [], _, _, _, _, _, hm => absurd ((hm t).1 List.mem_cons_self) (List.not_mem_nil)
  | t :: l, t' :: l', i, j, j', h, h', hm => by
    have a : t.b = i ∧ t.b < t.e ∧ Tiles w t.e j (l.map spanOf) := by
      cases h with | cons h1 h2 h3 h4 => exact ⟨rfl, h1, h4⟩
    have a' : t'.b = i ∧ t'.b < t'.e ∧ Tiles w t'.e j' (l'.map spanOf) := by
      cases h' with | cons h1 h2 h3 h4 => exact ⟨rfl, h1, h4⟩
    have e : t = t' := by
      rcases List.mem_cons.1 ((hm t).1 List.mem_cons_self) with e | e
      · exact e
      · have := tiles_lower l' _ _ a'.2.2 t e
        omega
    subst e
    congr 1
    refine toks_ext l l' t.e j j' a.2.2 a'.2.2 (fun u => ⟨fun hu => ?_, fun hu => ?_⟩)
    · rcases List.mem_cons.1 ((hm u).1 (List.mem_cons_of_mem _ hu)) with e | e
      · have := tiles_lower l _ _ a.2.2 u hu
        rw [e] at this
        omega
      · exact e
    · rcases List.mem_cons.1 ((hm u).2 (List.mem_cons_of_mem _ hu)) with e | e
      · have := tiles_lower l' _ _ a'.2.2 u hu
        rw [e] at this
        omega
      · exact e

private theorem spanScore_eq (scores : Dict Str Rat) (ds : Rat) (token : Str) (b e : Nat) :
    spanScore scores ds token b e = Dict.getD scores ((token.take e).drop b) ds := rfl

/-- C115 (a): MaxScoreTokenizer, one eojeol: if no token of the new result that carries its score in the new table is a rescored word, the old result was the
    same (tokens, offsets and scores). (Inner gaps carry the default score: it does not matter whether they are listed.)
    An eojeol on which one of the two raises makes both raise. -/
theorem C115_max_score_eojeol (old new : Dict Str Rat) (ds : Rat) (hr : Raised ds old new) (maxLength : Nat) (eojeol : Str) :
    (∀ toks, recursiveTokenize new maxLength ds eojeol = .ok toks → (∀ t ∈ toks, t.score = Dict.getD new t.word ds → ¬ Rescored ds old new t.word) →
      recursiveTokenize old maxLength ds eojeol = .ok toks) ∧
    (∀ e, recursiveTokenize new maxLength ds eojeol = .error e ↔ recursiveTokenize old maxLength ds eojeol = .error e) := by
  by_cases hl : eojeol.length ≤ 2
  · rw [C15_short new maxLength ds eojeol hl, C15_short old maxLength ds eojeol hl]
    exact ⟨fun toks h _ => h, fun e => Iff.rfl⟩
  have hl : 2 < eojeol.length := by omega
  by_cases hm : 2 ≤ maxLength
  swap
  · rw [C14_short_max_length new maxLength (by omega) ds eojeol hl, C14_short_max_length old maxLength (by omega) ds eojeol hl]
    exact ⟨fun toks h _ => h, fun e => Iff.rfl⟩
  obtain ⟨toks', chosen', g1, g2, g3, g4⟩ := C15_exact new maxLength hm ds eojeol hl
  obtain ⟨toks, chosen, f1, f2, f3, f4⟩ := C15_exact old maxLength hm ds eojeol hl
  rw [g1, f1]
  refine ⟨fun ts h hn => ?_, fun e => ⟨fun h => by (cases h), fun h => by (cases h)⟩⟩
  cases h
  have hsame : ∀ b e, ((b, e) ∈ chosen' ∨ (GapOf eojeol.length chosen' b e ∧ (b = 0 ∨ e = eojeol.length))) → spanScore old ds eojeol b e = spanScore new ds eojeol b e := by
    intro b e hbe
    rw [spanScore_eq, spanScore_eq]
    by_contra hne
    rcases hbe with h | ⟨h, h'⟩
    · exact hn ⟨(eojeol.take e).drop b, b, e, spanScore new ds eojeol b e, e - b⟩ ((g4 _).2 ⟨rfl, rfl, .inl ⟨h, rfl⟩⟩) rfl hne
    · exact hn ⟨(eojeol.take e).drop b, b, e, spanScore new ds eojeol b e, e - b⟩ ((g4 _).2 ⟨rfl, rfl, .inr ⟨h, by rw [if_pos h']⟩⟩) rfl hne
  have hc : chosen = chosen' := by
    refine C15_choice_unique old maxLength ds eojeol 101 _ _ f2 (pick_lower g2 (fun x hx y hxy => ?_))
    have h1 := hsame x.1 x.2 (.inl hx)
    have h2 : spanScore old ds eojeol y.1 y.2 ≤ spanScore new ds eojeol y.1 y.2 := hr _
    unfold RanksBefore at hxy ⊢
    rcases hxy with h | ⟨h, h'⟩
    · left; linarith
    · rcases lt_or_eq_of_le h2 with h3 | h3
      · left; linarith
      · right; exact ⟨by linarith, h'⟩
  subst hc
  congr 1
  refine toks_ext toks toks' 0 _ _ f3 g3 (fun t => ?_)
  rw [f4, g4]
  constructor
  · rintro ⟨h1, h2, ⟨h3, h4⟩ | ⟨h3, h4⟩⟩
    · exact ⟨h1, h2, .inl ⟨h3, by rw [h4, hsame _ _ (.inl h3)]⟩⟩
    · refine ⟨h1, h2, .inr ⟨h3, ?_⟩⟩
      rw [h4]
      by_cases he : t.b = 0 ∨ t.e = eojeol.length
      · rw [if_pos he, if_pos he, hsame _ _ (.inr ⟨h3, he⟩)]
      · rw [if_neg he, if_neg he]
  · rintro ⟨h1, h2, ⟨h3, h4⟩ | ⟨h3, h4⟩⟩
    · exact ⟨h1, h2, .inl ⟨h3, by rw [h4, hsame _ _ (.inl h3)]⟩⟩
    · refine ⟨h1, h2, .inr ⟨h3, ?_⟩⟩
      rw [h4]
      by_cases he : t.b = 0 ∨ t.e = eojeol.length
      · rw [if_pos he, if_pos he, hsame _ _ (.inr ⟨h3, he⟩)]
      · rw [if_neg he, if_neg he]

private theorem mapM_back {α β γ : Type} {f g : α → Except γ β} {P : β → Prop} : ∀ {l : List α} {ys : List β}, (∀ x ∈ l, ∀ y, f x = .ok y → P y → g x = .ok y) →
    l.mapM f = .ok ys → (∀ y ∈ ys, P y) → l.mapM g = .ok ys
  | [], ys, _, h, _ => h
  | x :: l, ys, hfg, h, hP => by
    rw [List.mapM_cons] at h
    cases hx : f x with
    | error e => rw [hx] at h; cases h
    | ok y =>
      rw [hx] at h
      cases hl : l.mapM f with
      | error e => rw [hl] at h; cases h
      | ok zs =>
        rw [hl] at h
        cases h
        rw [List.mapM_cons, hfg x List.mem_cons_self y hx (hP y List.mem_cons_self),
          mapM_back (fun z hz => hfg z (List.mem_cons_of_mem _ hz)) hl (fun z hz => hP z (List.mem_cons_of_mem _ hz))]
        rfl

/-- C115 (b): MaxScoreTokenizer on sentences, with offsets and flattened -/
theorem C115_max_score (old new : Dict Str Rat) (ds : Rat) (hr : Raised ds old new) (maxLength : Nat) (sentence : Str) :
    (∀ tss, tokenizeSpans new maxLength ds sentence = .ok tss → (∀ ts ∈ tss, ∀ t ∈ ts, t.score = Dict.getD new t.word ds → ¬ Rescored ds old new t.word) →
      tokenizeSpans old maxLength ds sentence = .ok tss) ∧
    (∀ ws, tokenize new maxLength ds sentence = .ok ws → (∀ w ∈ ws, ¬ Rescored ds old new w) → tokenize old maxLength ds sentence = .ok ws) := by
  have h1 : ∀ tss, tokenizeSpans new maxLength ds sentence = .ok tss → (∀ ts ∈ tss, ∀ t ∈ ts, t.score = Dict.getD new t.word ds → ¬ Rescored ds old new t.word) →
      tokenizeSpans old maxLength ds sentence = .ok tss :=
    fun tss h hn => mapM_back (P := fun ts => ∀ t ∈ ts, t.score = Dict.getD new t.word ds → ¬ Rescored ds old new t.word)
      (fun w _ ts h hP => (C115_max_score_eojeol old new ds hr maxLength w).1 ts h hP) h hn
  refine ⟨h1, fun ws h hn => ?_⟩
  unfold tokenize at h ⊢
  cases hs : tokenizeSpans new maxLength ds sentence with
  | error e => rw [hs] at h; cases h
  | ok tss =>
    rw [hs] at h
    have h : tss.flatMap (fun t => t.map (·.word)) = ws := Except.ok.inj h
    rw [h1 tss hs (fun ts hts t ht _ => hn _ (by rw [← h]; exact List.mem_flatMap.2 ⟨ts, hts, List.mem_map_of_mem ht⟩))]
    exact congrArg Except.ok h

/-! ### LTokenizer -/

/-- C115 (c): LTokenizer without tolerance: if no left part of the new result is a rescored word, the old result was the same -/
theorem C115_ltokenizer (old new : Dict Str Rat) (ds tol : Rat) (hr : Raised ds old new) (ht : tol ≤ 0) (sentence : Str) (ps : List (Str × Str))
    (h : LTok.tokenizePairs new ds tol sentence = .ok ps) (hn : ∀ p ∈ ps, ¬ Rescored ds old new p.1) : LTok.tokenizePairs old ds tol sentence = .ok ps := by
  obtain ⟨ps', h1', h2'⟩ := C13_pairs_lossless new ds tol sentence
  obtain ⟨ps0, h1, h2⟩ := C13_pairs_lossless old ds tol sentence
  rw [h] at h1'
  cases h1'
  rw [h1]
  congr 1
  generalize splitWs sentence = ws at h2 h2'
  clear h1 h
  induction h2' generalizing ps0 with
  | nil => cases h2; rfl
  | @cons w p ws ps a _ ih =>
    cases h2 with
    | cons b g =>
      rw [ih (fun q hq => hn q (List.mem_cons_of_mem _ hq)) _ g]
      have hs : Dict.getD old p.1 ds = Dict.getD new p.1 ds := not_not.1 (hn p List.mem_cons_self)
      obtain ⟨e1, e2⟩ := C13_unique old ds tol w _ _ _ _ b ⟨a.whole, a.short, a.two, fun hl c d hw hc => by
          have := a.good hl c d hw hc
          have := hr c
          linarith, fun hl c d hw hc => by
          obtain ⟨c', d', q1, q2, q3⟩ := a.longest hl c d hw hc
          have q4 := a.good hl c' d' q1 q2
          refine ⟨p.1, p.2, a.whole.symm, a.two hl, ?_⟩
          rw [max_eq_right ht, add_zero] at *
          have := hr c
          linarith⟩
      congr 1
      exact Prod.ext e1 e2

/-- C115 (d): with a tolerance this fails: raising the score of `파스` makes `파스타` win over `파스타면`, and `파스` does not come out -/
theorem C115_tolerance_violated :
    Raised 0 [("파스".toList, 2/10), ("파스타".toList, 3/10), ("파스타면".toList, 2/10)] [("파스".toList, 4/10), ("파스타".toList, 3/10), ("파스타면".toList, 2/10)] ∧
    LTok.tokenizePairs [("파스".toList, 2/10), ("파스타".toList, 3/10), ("파스타면".toList, 2/10)] 0 (15/100) "파스타면".toList = .ok [("파스타면".toList, [])] ∧
    LTok.tokenizePairs [("파스".toList, 4/10), ("파스타".toList, 3/10), ("파스타면".toList, 2/10)] 0 (15/100) "파스타면".toList = .ok [("파스타".toList, "면".toList)] := by
  refine ⟨fun v => ?_, by decide +kernel, by decide +kernel⟩
  unfold Dict.getD Dict.get?
  by_cases h : "파스".toList = v
  · rw [if_pos h, if_pos h]; decide +kernel
  · rw [if_neg h, if_neg h]

/-! ### the noun tokenizers -/

private theorem chain_old {old new : Str → Bool} (hsub : ∀ n, old n = true → new n = true) {w : Str} {ns : List Str} (h : NounChain new w ns)
    (hn : ∀ n ∈ ns, old n = true) : NounChain old w ns := by
  induction h with
  | stop h => exact .stop (fun n h1 h2 => h n (hsub n h1) h2)
  | take h1 _ ih =>
    exact .take ⟨hn _ List.mem_cons_self, h1.nonempty, h1.here, fun m h2 h3 => h1.longest m (hsub m h2) h3⟩ (ih (fun n hn' => hn n (List.mem_cons_of_mem _ hn')))

private theorem chain_once {isNoun : Str → Bool} {w : Str} {a b : List Str} (h : NounChain isNoun w a) (h' : NounChain isNoun w b) : a = b := by
  induction h generalizing b with
  | stop h =>
    cases h' with
    | stop _ => rfl
    | take h1 _ => exact absurd (h _ h1.noun h1.here) h1.nonempty
  | @take n rest ns h1 _ ih =>
    generalize hw : n ++ rest = w at h'
    cases h' with
    | stop h => subst hw; exact absurd (h _ h1.noun h1.here) h1.nonempty
    | @take n' rest' ns' h1' h2' =>
      have hp : n' <+: n ++ rest := by rw [hw]; exact h1'.here
      have hp' : n <+: n' ++ rest' := by rw [← hw]; exact h1.here
      have e : n = n' ∧ rest = rest' := List.append_inj hw (Nat.le_antisymm (h1'.longest n h1.noun hp') (h1.longest n' h1'.noun hp))
      obtain ⟨rfl, rfl⟩ := e
      rw [ih h2']

/-- C115 (e): NounLMatchTokenizer: adding nouns changes nothing, with and without compounds, unless one of the added nouns is returned (without compounds) -/
theorem C115_left_nouns (old new : Str → Bool) (hsub : ∀ n, old n = true → new n = true) (sentence : Str)
    (hn : ∀ n ∈ NounTok.tokenizeL new sentence false, old n = true) (compose : Bool) : NounTok.tokenizeL new sentence compose = NounTok.tokenizeL old sentence compose := by
  obtain ⟨cs, h1, h2, h3⟩ := C18_left_chains new sentence
  obtain ⟨cs', h1', h2', h3'⟩ := C18_left_chains old sentence
  have e : cs = cs' := by
    rw [h2] at hn
    clear h2 h3 h2' h3'
    generalize splitWs sentence = ws at h1 h1'
    induction h1 generalizing cs' with
    | nil => cases h1'; rfl
    | cons a _ ih =>
      cases h1' with
      | cons b g =>
        rw [ih (fun n h => hn n (by rw [List.flatten_cons]; exact List.mem_append_right _ h)) _ g]
        congr 1
        exact chain_once (chain_old hsub a (fun n h => hn n (by rw [List.flatten_cons]; exact List.mem_append_left _ h))) b
  subst e
  cases compose with
  | false => rw [h2, h2']
  | true => rw [h3, h3']

/-- C115 (f): but an added noun that is returned can cost others: the tokenizer does not look for another way through the eojeol -/
theorem C115_noun_lost :
    NounTok.tokenizeL (fun n => decide (n ∈ ["서울".toList, "대학".toList])) "서울대학".toList true = ["서울대학".toList] ∧
    NounTok.tokenizeL (fun n => decide (n ∈ ["서울".toList, "대학".toList, "서울대".toList])) "서울대학".toList true = ["서울대".toList] := by
  refine ⟨by decide +kernel, by decide +kernel⟩

private theorem mapM_each {α β γ : Type} {f g : α → Except γ β} : ∀ {l : List α} {ys : List β}, l.mapM f = .ok ys → l.mapM g = .ok ys → ∀ x ∈ l, f x = g x
  | [], _, _, _, x, hx => by cases hx
  | a :: l, ys, h, h', x, hx => by
    rw [List.mapM_cons] at h h'
    cases ha : f a with
    | error e => rw [ha] at h; cases h
    | ok y =>
      rw [ha] at h
      cases hl : l.mapM f with
      | error e => rw [hl] at h; cases h
      | ok zs =>
        rw [hl] at h
        cases h
        cases ha' : g a with
        | error e => rw [ha'] at h'; cases h'
        | ok y' =>
          rw [ha'] at h'
          cases hl' : l.mapM g with
          | error e => rw [hl'] at h'; cases h'
          | ok zs' =>
            rw [hl'] at h'
            cases h'
            rcases List.mem_cons.1 hx with rfl | hx
            · rw [ha, ha']
            · exact mapM_each hl hl' x hx

private theorem mapM_congr' {α β γ : Type} {f g : α → Except γ β} : ∀ {l : List α}, (∀ x ∈ l, f x = g x) → l.mapM f = l.mapM g
  | [], _ => rfl
  | a :: l, h => by rw [List.mapM_cons, List.mapM_cons, h a List.mem_cons_self, mapM_congr' (fun x hx => h x (List.mem_cons_of_mem _ hx))]

/-- C115 (g): NounMatchTokenizer: the same, if the raised words now have a positive score: unless one of them is returned (without compounds), the result is
    unchanged, with and without compounds -/
theorem C115_noun_match (old new : Dict Str Rat) (hr : Raised 0 old new) (hpos : ∀ v, Rescored 0 old new v → 0 < Dict.getD new v 0) (sentence : Str)
    (ws : List Str) (h : NounTok.matchTokenize new sentence false = .ok ws) (hn : ∀ w ∈ ws, ¬ Rescored 0 old new w) (compose : Bool) :
    NounTok.matchTokenize old sentence compose = NounTok.matchTokenize new sentence compose := by
  obtain ⟨toks, h1, h2, -⟩ := C19_positive_groups new sentence
  rw [h] at h2
  have h2 := Except.ok.inj h2
  have h3 : tokenizeSpans old 10 0 sentence = .ok toks := (C115_max_score old new 0 hr 10 sentence).1 toks h1 (fun ts hts t ht hsc hre => by
    have hp := hpos _ hre
    rw [← hsc] at hp
    refine hn t.word ?_ hre
    rw [h2]
    exact List.mem_map_of_mem (List.mem_filter.2 ⟨List.mem_flatten.2 ⟨ts, hts, ht⟩, decide_eq_true hp⟩))
  have h4 : ∀ w ∈ splitWs sentence, recursiveTokenize old 10 0 w = recursiveTokenize new 10 0 w := mapM_each h3 h1
  unfold NounTok.matchTokenize NounTok.matchSpans
  congr 1
  refine mapM_congr' (fun w hw => ?_)
  obtain ⟨v, hv, rfl⟩ := List.mem_map.1 (List.mem_filter.1 hw).1
  have hv' := word_self (splitWs_words sentence v hv)
  rw [hv'.2]
  unfold NounTok.matchEojeol tokenizeSpans
  rw [hv'.1, List.mapM_cons, List.mapM_cons, h4 v hv]
  rfl

/-- a table and the same table with `데이터` raised: in the first eojeol `데이터` comes out, the second is unchanged -/
example : Raised 0 [("이터분".toList, 1), ("데이터".toList, 1/2), ("빅데".toList, 2)] [("데이터".toList, 3/2), ("이터분".toList, 1), ("빅데".toList, 2)] ∧
    tokenize [("이터분".toList, 1), ("데이터".toList, 1/2), ("빅데".toList, 2)] 10 0 "데이터분석 빅데이터".toList = .ok ["데".toList, "이터분".toList, "석".toList, "빅데".toList, "이터".toList] ∧
    tokenize [("데이터".toList, 3/2), ("이터분".toList, 1), ("빅데".toList, 2)] 10 0 "데이터분석 빅데이터".toList = .ok ["데이터".toList, "분석".toList, "빅데".toList, "이터".toList] := by
  refine ⟨fun v => ?_, by decide +kernel, by decide +kernel⟩
  unfold Dict.getD
  by_cases h1 : "데이터".toList = v
  · subst h1; decide +kernel
  · by_cases h2 : "이터분".toList = v
    · subst h2; decide +kernel
    · by_cases h3 : "빅데".toList = v
      · subst h3; decide +kernel
      · unfold Dict.get? Dict.get? Dict.get? Dict.get?
        rw [if_neg h2, if_neg h1, if_neg h3, if_neg h1, if_neg h2]

end Props

import Verif.Props.C51
/-! C16: what RegexTokenizer returns, exactly; C17: its number tokens. -/
namespace Props
open Py Spec RegexTok Regex

/-- `w` is cut at the matches of `m` -/
def cut (m : Str → Option Nat) (w : Str) : List Str := splitWs (spaced m 0 w)

private theorem glue_spaced (isWord isDigit : Char → Bool) (r : Re) (m : Str → Option Nat) (hm : Measures isWord isDigit r m) (hp : Proper m)
    (hsp : ∀ s k, m s = some k → ∀ c ∈ s.take k, isSpace c = false) (s : Str) :
    ∀ cur, (∀ c ∈ s, isSpace c = false) → glue cur (all isWord isDigit r s) = splitGo cur (spaced m 0 s) := by
  have hb : isSpace ' ' = true := by decide
  induction s using match_induction m hp with
  | hnil => intro cur _; rfl
  | hmatch s k h ih =>
    intro cur hs
    obtain ⟨h1, h2⟩ := hm s
    obtain ⟨k1, k2⟩ := h2 k h
    obtain ⟨u, hu⟩ : ∃ u, first isWord isDigit r s = some (u, s.drop k) := by
      unfold first
      rw [h] at h1
      cases hf : (run isWord isDigit r (none, s)).head? with
      | none => rw [hf] at h1; cases h1
      | some y =>
        rw [hf] at h1
        refine ⟨y.1, ?_⟩
        have : y.2 = s.drop k := by simpa using h1
        rw [← this]
    rw [all_hit isWord isDigit r s u k k1 k2 hu, spaced_match m hp s k h, glue, ih [] (fun c hc => hs c (List.mem_of_mem_drop hc)), splitGo]
    simp only [hb, if_true]
    have hw : ∀ cur : Str, splitGo cur (s.take k ++ ' ' :: spaced m 0 (s.drop k)) = (cur ++ s.take k) :: splitGo [] (spaced m 0 (s.drop k)) := by
      have hne : s.take k ≠ [] := by
        intro e
        have := congrArg List.length e
        rw [List.length_take, List.length_nil] at this; omega
      have := hsp s k h
      revert hne this
      generalize s.take k = w
      intro hne hw
      suffices H : ∀ w : Str, (∀ c ∈ w, isSpace c = false) → ∀ cur : Str, cur ++ w ≠ [] → splitGo cur (w ++ ' ' :: spaced m 0 (s.drop k)) = (cur ++ w) :: splitGo [] (spaced m 0 (s.drop k)) from
        fun cur => H w hw cur (by simp [hne])
      intro w
      induction w with
      | nil => intro _ cur hc; rw [List.append_nil] at hc; simp [splitGo, hb, hc]
      | cons c w ih =>
        intro hw cur _
        rw [List.cons_append, splitGo, if_neg (by rw [hw c (by simp)]; decide), ih (fun x hx => hw x (by simp [hx])) _ (by simp)]
        simp
    split
    · rename_i hc; rw [hw]; simp
    · rename_i hc; rw [hw]; simp
  | hno c cs h ih =>
    intro cur hs
    obtain ⟨h1, _⟩ := hm (c :: cs)
    have hf : first isWord isDigit r (c :: cs) = none := by
      unfold first
      rw [h] at h1
      cases hf : (run isWord isDigit r (none, c :: cs)).head? with
      | none => rfl
      | some y => rw [hf] at h1; cases h1
    rw [all_char isWord isDigit r c cs hf, glue, ih _ (fun x hx => hs x (by simp [hx])), spaced, h]
    show _ = splitGo cur (c :: spaced m 0 cs)
    rw [splitGo, if_neg (by rw [hs c (by simp)]; decide)]

/-- whitespace ends every match and starts none -/
private structure Stops (m : Str → Option Nat) : Prop where
  ends : ∀ a b x, isSpace x = true → m (a ++ x :: b) = m a
  starts : ∀ b x, isSpace x = true → m (x :: b) = none

private theorem splitGo_append_space (a b cur : Str) (x : Char) (hx : isSpace x = true) : splitGo cur (a ++ x :: b) = splitGo cur a ++ splitGo [] b := by
  induction a generalizing cur with
  | nil =>
    simp only [List.nil_append, splitGo, hx, if_true]
    split <;> simp
  | cons c a ih =>
    simp only [List.cons_append, splitGo]
    split
    · split
      · exact ih []
      · rw [ih]; rfl
    · exact ih _

private theorem spaced_append_space (m : Str → Option Nat) (hp : Proper m) (hs : Stops m) (a b : Str) (x : Char) (hx : isSpace x = true) :
    spaced m 0 (a ++ x :: b) = spaced m 0 a ++ x :: spaced m 0 b := by
  induction a using match_induction m hp with
  | hnil =>
    have h0 := hs.starts b x hx
    simp only [List.nil_append, spaced, h0]
  | hmatch s k h ih =>
    have hk := hp s k h
    rw [spaced_match m hp s k h, spaced_match m hp (s ++ x :: b) k (by rw [hs.ends s b x hx]; exact h),
      List.take_append_of_le_length hk.2, List.drop_append_of_le_length hk.2, ih]
    simp
  | hno c cs h ih =>
    have h' : m (c :: (cs ++ x :: b)) = none := by
      have := hs.ends (c :: cs) b x hx
      rw [List.cons_append] at this
      rw [this]; exact h
    rw [List.cons_append, spaced, h', spaced, h]
    simp only
    rw [ih]
    rfl

theorem splitWs_self {s : Str} (h0 : s ≠ []) (hns : ∀ c ∈ s, isSpace c = false) : splitWs s = [s] := by
  have : ∀ (t cur : Str), (∀ c ∈ t, isSpace c = false) → cur ++ t ≠ [] → splitGo cur t = [cur ++ t] := by
    intro t
    induction t with
    | nil => intro cur _ hc; rw [List.append_nil] at hc; simp [splitGo, hc]
    | cons c t iht =>
      intro cur ht _
      rw [splitGo, if_neg (by rw [ht c (by simp)]; decide), iht _ (fun x hx => ht x (by simp [hx])) (by simp)]
      simp
  exact this s [] hns (by simpa using h0)

/-- an operation that whitespace separates can be done word by word -/
private theorem by_words (f : Str → List Str) (h0 : f [] = []) (hf : ∀ a b x, isSpace x = true → f (a ++ x :: b) = f a ++ f b) (s : Str) :
    f s = (splitWs s).flatMap f := by
  suffices H : ∀ n (s : Str), s.length ≤ n → f s = (splitWs s).flatMap f from H _ s (Nat.le_refl _)
  intro n
  induction n with
  | zero =>
    intro s h
    have : s = [] := List.length_eq_zero_iff.1 (by omega)
    subst this; rw [h0]; rfl
  | succ n ih =>
    intro s h
    by_cases hsp : ∃ x ∈ s, isSpace x = true
    · obtain ⟨x, hx, hxs⟩ := hsp
      obtain ⟨a, b, rfl⟩ := List.append_of_mem hx
      rw [List.length_append, List.length_cons] at h
      have e1 := ih a (by omega)
      have e2 := ih b (by omega)
      unfold splitWs at e1 e2 ⊢
      rw [hf a b x hxs, splitGo_append_space _ _ _ _ hxs, List.flatMap_append, ← e1, ← e2]
    · have hns : ∀ c ∈ s, isSpace c = false := by
        intro c hc
        cases hcs : isSpace c
        · rfl
        · exact absurd ⟨c, hc, hcs⟩ hsp
      by_cases hs : s = []
      · subst hs; rw [h0]; rfl
      · rw [splitWs_self hs hns]; simp

/-- a text can be cut word by word -/
private theorem cut_words (m : Str → Option Nat) (hp : Proper m) (hs : Stops m) (s : Str) : cut m s = (splitWs s).flatMap (cut m) := by
  refine by_words _ rfl ?_ s
  intro a b x hx
  unfold cut splitWs
  rw [spaced_append_space m hp hs a b x hx, splitGo_append_space _ _ _ _ hx]

private theorem fold_cut (ms : List (Str → Option Nat)) (hp : ∀ m ∈ ms, Proper m) (hst : ∀ m ∈ ms, Stable m) (hs : ∀ m ∈ ms, Stops m) (s : Str) :
    splitWs (ms.foldl (fun s m => applyPattern m s) s) = ms.foldl (fun ws m => ws.flatMap (cut m)) (splitWs s) := by
  induction ms generalizing s with
  | nil => rfl
  | cons m ms ih =>
    rw [List.foldl_cons, List.foldl_cons, ih (fun x h => hp x (by simp [h])) (fun x h => hst x (by simp [h])) (fun x h => hs x (by simp [h])),
      applyPattern_eq_spaced m (hp m (by simp)) (hst m (by simp)), ← cut_words m (hp m (by simp)) (hs m (by simp))]
    rfl

private theorem flatMap_fold (ms : List (Str → Option Nat)) (ws : List Str) :
    ws.flatMap (fun w => ms.foldl (fun ws m => ws.flatMap (cut m)) [w]) = ms.foldl (fun ws m => ws.flatMap (cut m)) ws := by
  induction ms generalizing ws with
  | nil => simp
  | cons m ms ih =>
    simp only [List.foldl_cons]
    rw [← ih (ws.flatMap (cut m)), List.flatMap_assoc]
    congr 1
    funext w
    rw [← ih]
    simp

private theorem stops_run (p : Char → Bool) (hp : ∀ c, isSpace c = true → p c = false) : Stops (matchRun p) where
  ends a b x hx := by
    unfold matchRun
    rw [runLength_append_sep p a b x (hp x hx)]
  starts b x hx := by
    unfold matchRun runLength
    simp [hp x hx]

private theorem stops_digits (isDigit : Char → Bool) (hd : ∀ c, isDigit c = true → isSpace c = false) (a b : Str) (x : Char) (hx : isSpace x = true) :
    matchDigits isDigit (a ++ x :: b) = matchDigits isDigit a := by
  have hx' : isDigit x = false := by
    cases h : isDigit x
    · rfl
    · rw [hd x h] at hx; cases hx
  have hdot : x ≠ '.' := by rintro rfl; revert hx; decide
  have hle := RegexTok.runLength_le isDigit a
  unfold matchDigits
  dsimp only
  rw [runLength_append_sep isDigit a b x hx', List.drop_append_of_le_length hle]
  generalize a.drop (runLength isDigit a) = d
  cases d with
  | nil =>
    rw [List.nil_append]
    split
    · rename_i rest he
      exact absurd (List.cons.inj he).1 hdot
    · rfl
  | cons c d =>
    rw [List.cons_append]
    by_cases hc : c = '.'
    · subst hc
      simp only [runLength_append_sep isDigit d b x hx']
    · have e : ∀ r : Str, (match c :: r with
          | '.' :: rest => if runLength isDigit rest ≠ 0 then some (runLength isDigit a + 1 + runLength isDigit rest) else if runLength isDigit a ≠ 0 then some (runLength isDigit a) else none
          | _ => if runLength isDigit a ≠ 0 then some (runLength isDigit a) else none) = (if runLength isDigit a ≠ 0 then some (runLength isDigit a) else none) := by
        intro r
        split
        · rename_i he
          exact absurd (List.cons.inj he).1 hc
        · rfl
      exact (e _).trans (e _).symm

private theorem stops_number (isDigit : Char → Bool) (hd : ∀ c, isDigit c = true → isSpace c = false) : Stops (matchNumber isDigit) where
  starts b x hx := by
    have h1 := stops_digits isDigit hd [] b x hx
    have e : (decide (x = '-') || decide (x = '+')) = false := by
      have m : x ≠ '-' := by rintro rfl; revert hx; decide
      have p : x ≠ '+' := by rintro rfl; revert hx; decide
      simp [m, p]
    unfold matchNumber
    simp only [e, Bool.false_eq_true, if_false]
    rw [List.nil_append] at h1
    rw [h1]; rfl
  ends a b x hx := by
    cases a with
    | nil =>
      have h1 := stops_digits isDigit hd [] b x hx
      have e : (decide (x = '-') || decide (x = '+')) = false := by
        have m : x ≠ '-' := by rintro rfl; revert hx; decide
        have p : x ≠ '+' := by rintro rfl; revert hx; decide
        simp [m, p]
      unfold matchNumber
      simp only [List.nil_append, e, Bool.false_eq_true, if_false]
      rw [List.nil_append] at h1
      rw [h1]; rfl
    | cons c a =>
      simp only [matchNumber, List.cons_append]
      split
      · rw [stops_digits isDigit hd a b x hx]
      · have := stops_digits isDigit hd (c :: a) b x hx
        rw [List.cons_append] at this
        rw [this]

private theorem eng_of_space {x : Char} (hx : isSpace x = true) : eng x = false := by
  cases h : eng x
  · rfl
  · exfalso
    rw [isSpace_iff] at hx
    simp only [whitespace, List.mem_cons, List.not_mem_nil, or_false] at hx
    simp only [eng, isLatin, Bool.or_eq_true, Bool.and_eq_true, decide_eq_true_eq, beq_iff_eq] at h
    rcases h with (((h | h) | h) | h) | h
    · omega
    all_goals (subst h; revert hx; decide)

private theorem stops_english : Stops matchEnglish where
  ends a b x hx := matchEnglish_append a b x (eng_of_space hx)
  starts b x hx := by
    rw [matchEnglish_head]
    have := eng_of_space hx
    simp only [eng, Bool.or_eq_false_iff] at this
    exact this.1.1.1.1

private theorem stops_patterns (isDigit : Char → Bool) (hd : ∀ c, isDigit c = true → isSpace c = false) : ∀ m ∈ patterns isDigit, Stops m := by
  have hbig : ∀ c : Char, isSpace c = true → c.toNat ≤ 0x3000 := by
    intro c hc
    rw [isSpace_iff] at hc
    simp only [whitespace, List.mem_cons, List.not_mem_nil, or_false] at hc
    omega
  intro m hm
  simp only [patterns, List.mem_cons, List.not_mem_nil, or_false] at hm
  rcases hm with rfl | rfl | rfl | rfl | rfl
  · exact stops_number isDigit hd
  · refine stops_run _ (fun c hc => ?_)
    have := hbig c hc
    simp only [isSyllable, Bool.and_eq_false_iff, decide_eq_false_iff_not]; omega
  · refine stops_run _ (fun c hc => ?_)
    have := hbig c hc
    simp only [isJaum, Bool.and_eq_false_iff, decide_eq_false_iff_not]; omega
  · refine stops_run _ (fun c hc => ?_)
    have := hbig c hc
    simp only [isMoum, Bool.and_eq_false_iff, decide_eq_false_iff_not]; omega
  · exact stops_english

private theorem stops_chars {m : Str → Option Nat} (hp : Proper m) (hs : Stops m) (s : Str) (k : Nat) (h : m s = some k) : ∀ c ∈ s.take k, isSpace c = false := by
  intro c hc
  cases hcs : isSpace c
  · rfl
  · exfalso
    have hk := hp s k h
    obtain ⟨a, b, hab⟩ := List.append_of_mem hc
    have hs' : s = a ++ c :: (b ++ s.drop k) := by
      conv_lhs => rw [← List.take_append_drop k s, hab]
      simp
    have hma : m a = some k := by
      rw [← hs.ends a (b ++ s.drop k) c hcs, ← hs', h]
    have h2 := (hp a k hma).2
    have h3 := congrArg List.length hab
    rw [List.length_take, List.length_append, List.length_cons] at h3
    omega

theorem tokenize_cut (isDigit : Char → Bool) (hd : ∀ c, isDigit c = true → isSpace c = false) (s : Str) :
    RegexTok.tokenize isDigit s = (patterns isDigit).foldl (fun ws m => ws.flatMap (cut m)) (splitWs s) := by
  rw [tokenize_eq, ← flatMap_fold]
  rw [List.flatMap_def, List.flatMap_def]
  congr 1
  apply List.map_congr_left
  intro w hw
  rw [tokenizeOne_eq, fold_cut _ (proper_patterns isDigit) (stable_patterns isDigit) (stops_patterns isDigit hd)]
  rw [show splitWs w = [w] from splitWs_self (splitWs_nonempty hw) (splitWs_nospace hw)]

private theorem mapM_some {α β : Type} (f : α → Option β) (g : α → β) (l : List α) (h : ∀ x ∈ l, f x = some (g x)) : l.mapM f = some (l.map g) := by
  induction l with
  | nil => rfl
  | cons x l ih =>
    rw [List.mapM_cons, h x (by simp), ih (fun y hy => h y (by simp [hy]))]
    rfl

private theorem foldlM_cut (isWord isDigit : Char → Bool) (l : List (String × (Str → Option Nat)))
    (hl : ∀ e ∈ l, Stops e.2 ∧ Proper e.2 ∧ ∃ r, parse e.1 = some r ∧ Measures isWord isDigit r e.2) (ws : List Str) (hw : ∀ w ∈ ws, ∀ c ∈ w, isSpace c = false) :
    (l.map (·.1)).foldlM (fun parts p => (parts.mapM (reCut isWord isDigit p)).map List.flatten) ws =
      some ((l.map (·.2)).foldl (fun ws m => ws.flatMap (cut m)) ws) := by
  induction l generalizing ws with
  | nil => rfl
  | cons e l ih =>
    obtain ⟨hs, hp, r, hr, hm⟩ := hl e (by simp)
    have h1 : ws.mapM (reCut isWord isDigit e.1) = some (ws.map (cut e.2)) := by
      apply mapM_some
      intro w hww
      unfold reCut
      rw [hr]
      exact congrArg some (glue_spaced isWord isDigit r e.2 hm hp (stops_chars hp hs) w [] (hw w hww))
    rw [List.map_cons, List.map_cons, List.foldlM_cons, List.foldl_cons, h1]
    simp only [Option.map_some, ← List.flatMap_def]
    refine ih (fun x hx => hl x (by simp [hx])) _ ?_
    intro w hww
    obtain ⟨v, _, hv⟩ := List.mem_flatMap.1 hww
    exact splitWs_nospace hv

private theorem pattern_list (isWord isDigit : Char → Bool) (hd : ∀ c, isDigit c = true → c.toNat ∉ whitespace ∧ c ≠ '.' ∧ c ≠ '-' ∧ c ≠ '+') :
    ∃ l : List (String × (Str → Option Nat)), l.map (·.1) = tokenizerPatterns ∧ l.map (·.2) = patterns isDigit ∧
      ∀ e ∈ l, Stops e.2 ∧ Proper e.2 ∧ ∃ r, parse e.1 = some r ∧ Measures isWord isDigit r e.2 := by
  have hno : ∀ c, (c = '.' ∨ c = '-' ∨ c = '+') → isDigit c = false := by
    intro c hc
    cases h : isDigit c
    · rfl
    · obtain ⟨_, h1, h2, h3⟩ := hd c h
      rcases hc with hc | hc | hc
      · exact absurd hc h1
      · exact absurd hc h2
      · exact absurd hc h3
  have hsp : ∀ c, isDigit c = true → isSpace c = false := by
    intro c hc
    cases h : isSpace c
    · rfl
    · exact absurd ((isSpace_iff c).1 h) (hd c hc).1
  have hst := stops_patterns isDigit hsp
  have hpr := proper_patterns isDigit
  have hin : ∀ lo hi c, inSet isWord isDigit false [.range lo hi] c = (decide (lo.toNat ≤ c.toNat) && decide (c.toNat ≤ hi.toNat)) := by
    intro lo hi c; simp [inSet, Item.has]
  refine ⟨[("[-+]?\\d*[\\.]?[\\d]+|[-+]?\\d+", matchNumber isDigit), ("[가-힣]+", matchRun isSyllable), ("[ㄱ-ㅎ]+", matchRun isJaum),
    ("[ㅏ-ㅣ]+", matchRun isMoum), ("[a-zA-ZÀ-ÿ]+[[`']?s]*|[a-zA-ZÀ-ÿ]+", matchEnglish)], rfl, rfl, ?_⟩
  intro e he
  refine ⟨hst e.2 ?_, hpr e.2 ?_, ?_⟩
  · exact List.mem_map.2 ⟨e, he, rfl⟩
  · exact List.mem_map.2 ⟨e, he, rfl⟩
  · simp only [List.mem_cons, List.not_mem_nil, or_false] at he
    rcases he with rfl | rfl | rfl | rfl | rfl
    · exact ⟨_, by show parse "[-+]?\\d*[\\.]?[\\d]+|[-+]?\\d+" = _; decide +kernel, measures_number isWord isDigit (hno '.' (by simp)) (hno '-' (by simp)) (hno '+' (by simp))⟩
    · exact ⟨_, by decide +kernel, measures_run isWord isDigit false [.range '가' '힣'] isSyllable (hin _ _)⟩
    · exact ⟨_, by decide +kernel, measures_run isWord isDigit false [.range 'ㄱ' 'ㅎ'] isJaum (hin _ _)⟩
    · exact ⟨_, by decide +kernel, measures_run isWord isDigit false [.range 'ㅏ' 'ㅣ'] isMoum (hin _ _)⟩
    · exact ⟨_, by decide +kernel, measures_english isWord isDigit⟩

private theorem splitWs_eq_runs (s : Str) : splitWs s = runs (fun c => decide (c.toNat ∉ whitespace)) s := by
  have e : (fun c => !isSpace c) = (fun c : Char => decide (c.toNat ∉ whitespace)) := by
    funext c
    have := isSpace_iff c
    cases h : isSpace c <;> simp_all
  have h := splitWs_keepOrBlank (fun _ => true) s
  simp only [Bool.true_and] at h
  rw [← e, ← h]
  congr 1
  unfold keepOrBlank
  simp

/-- C16: the tokens of a sentence, exactly. The words of the sentence (its runs of non-whitespace) are cut at the matches of the first
    pattern, the parts at those of the second, and so on through the five patterns of the source, read and run as Python's `re` does;
    what results is what `tokenize` returns. (The tokenizer looks each match up again by its text and marks it with blanks; this never
    goes wrong.) -/
theorem C16_exact (isWord isDigit : Char → Bool) (hd : ∀ c, isDigit c = true → c.toNat ∉ whitespace ∧ c ≠ '.' ∧ c ≠ '-' ∧ c ≠ '+') (s : List Char) :
    tokenizerPatterns.foldlM (fun parts p => (parts.mapM (reCut isWord isDigit p)).map List.flatten) (runs (fun c => decide (c.toNat ∉ whitespace)) s) =
      some (RegexTok.tokenize isDigit s) := by
  obtain ⟨l, h1, h2, h3⟩ := pattern_list isWord isDigit hd
  have hsp : ∀ c, isDigit c = true → isSpace c = false := by
    intro c hc
    cases h : isSpace c
    · rfl
    · exact absurd ((isSpace_iff c).1 h) (hd c hc).1
  rw [← h1, ← splitWs_eq_runs, foldlM_cut isWord isDigit l h3 _ (fun w hw => splitWs_nospace hw), h2, tokenize_cut isDigit hsp]

/-- the ASCII digits meet the hypothesis; this is the tokenizer at work -/
example : (∀ c, asciiDigit c = true → c.toNat ∉ whitespace ∧ c ≠ '.' ∧ c ≠ '-' ∧ c ≠ '+') ∧
    RegexTok.tokenize asciiDigit "값3.1.2.1%는a-1!".toList =
      ["값".toList, "3.1".toList, ".2".toList, ".1".toList, "%".toList, "는".toList, "a".toList, "-1".toList, "!".toList] := by
  refine ⟨?_, by decide +kernel⟩
  intro c hc
  simp only [asciiDigit, decide_eq_true_eq] at hc
  refine ⟨?_, ?_, ?_, ?_⟩
  · simp only [whitespace, List.mem_cons, List.not_mem_nil, or_false]; omega
  all_goals (rintro rfl; revert hc; decide)

/-! ### numbers -/

private theorem findAll_append_space (m : Str → Option Nat) (hp : Proper m) (hs : Stops m) (a b : Str) (x : Char) (hx : isSpace x = true) :
    findAll m 0 (a ++ x :: b) = findAll m 0 a ++ findAll m 0 b := by
  induction a using match_induction m hp with
  | hnil =>
    have h0 := hs.starts b x hx
    simp [findAll, h0]
  | hmatch s k h ih =>
    have hk := hp s k h
    rw [findAll_match m hp s k h, findAll_match m hp (s ++ x :: b) k (by rw [hs.ends s b x hx]; exact h),
      List.take_append_of_le_length hk.2, List.drop_append_of_le_length hk.2, ih]
    rfl
  | hno c cs h ih =>
    have h' : m (c :: (cs ++ x :: b)) = none := by
      have := hs.ends (c :: cs) b x hx
      rw [List.cons_append] at this
      rw [this]; exact h
    rw [List.cons_append, findAll, h', findAll, h]
    exact ih

private theorem digits_has_digit (isDigit : Char → Bool) (s : Str) (k : Nat) (h : matchDigits isDigit s = some k) : (s.take k).any isDigit = true := by
  have hrun : ∀ t : Str, runLength isDigit t ≠ 0 → (t.take (runLength isDigit t)).any isDigit = true := by
    intro t ht
    obtain ⟨c, cs, rfl, hc⟩ := head_of_runLength ht
    rw [List.any_eq_true]
    refine ⟨c, ?_, hc⟩
    rw [(run_split isDigit _).1]
    simp [hc]
  unfold matchDigits at h
  dsimp only at h
  split at h
  · rename_i rest he
    split at h
    · rename_i hf
      cases h
      have hsplit : s.take (runLength isDigit s + 1 + runLength isDigit rest) =
          s.take (runLength isDigit s) ++ '.' :: rest.take (runLength isDigit rest) := by
        have hle := RegexTok.runLength_le isDigit s
        generalize runLength isDigit s = n at he hle ⊢
        conv_lhs => rw [← List.take_append_drop n s, he]
        rw [List.take_append, List.length_take, Nat.min_eq_left hle]
        rw [List.take_of_length_le (by rw [List.length_take]; omega)]
        congr 1
        rw [show n + 1 + runLength isDigit rest - n = runLength isDigit rest + 1 by omega]
        rfl
      rw [hsplit, List.any_append, List.any_cons, hrun rest hf]
      simp
    · split at h
      · rename_i hd; cases h; exact hrun s hd
      · cases h
  · split at h
    · rename_i hd; cases h; exact hrun s hd
    · cases h

private theorem number_has_digit (isDigit : Char → Bool) (s : Str) (k : Nat) (h : matchNumber isDigit s = some k) : (s.take k).any isDigit = true := by
  cases s with
  | nil => cases h
  | cons c cs =>
    simp only [matchNumber] at h
    split at h
    · cases hm : matchDigits isDigit cs with
      | none => rw [hm] at h; cases h
      | some j =>
        rw [hm] at h
        cases h
        rw [List.take_succ_cons, List.any_cons, digits_has_digit isDigit cs j hm]
        simp
    · exact digits_has_digit isDigit _ k h

private theorem number_none (isDigit : Char → Bool) (hm : isDigit '-' = false) (hp : isDigit '+' = false) {c : Char} {cs : Str} (h : matchNumber isDigit (c :: cs) = none) :
    isDigit c = false := by
  cases hc : isDigit c
  · rfl
  · exfalso
    have h1 : c ≠ '-' := by rintro rfl; rw [hm] at hc; cases hc
    have h2 : c ≠ '+' := by rintro rfl; rw [hp] at hc; cases hc
    simp only [matchNumber, h1, h2, decide_false, Bool.or_self, Bool.false_eq_true, if_false] at h
    exact (matchDigits_ne_none_iff isDigit (c :: cs)).2 (Or.inl ⟨c, cs, rfl, hc⟩) h

private theorem cut_numbers (isDigit : Char → Bool) (hd : ∀ c, isDigit c = true → isSpace c = false) (hm : isDigit '-' = false) (hp : isDigit '+' = false) (s : Str) :
    ∀ cur, (∀ c ∈ s, isSpace c = false) → (∀ c ∈ cur, isDigit c = false) →
      (splitGo cur (spaced (matchNumber isDigit) 0 s)).filter (fun t => t.any isDigit) = findAll (matchNumber isDigit) 0 s := by
  have hb : isSpace ' ' = true := by decide
  have hno : ∀ cur : Str, (∀ c ∈ cur, isDigit c = false) → (cur.any isDigit) = false := by
    intro cur hc
    rw [List.any_eq_false]
    intro c h; rw [hc c h]; decide
  induction s using match_induction (matchNumber isDigit) (proper_number isDigit) with
  | hnil =>
    intro cur _ hc
    simp only [spaced, splitGo, findAll]
    split
    · rfl
    · simp [hno cur hc]
  | hmatch s k h ih =>
    intro cur hs hc
    have hk := proper_number isDigit s k h
    rw [spaced_match _ (proper_number isDigit) s k h, findAll_match _ (proper_number isDigit) s k h,
      show ' ' :: (s.take k ++ ' ' :: spaced (matchNumber isDigit) 0 (s.drop k)) = [] ++ ' ' :: (s.take k ++ ' ' :: spaced (matchNumber isDigit) 0 (s.drop k)) from rfl,
      splitGo_append_space _ _ _ _ hb, splitGo_append_space _ _ _ _ hb, List.filter_append, List.filter_append,
      ih [] (fun c hc => hs c (List.mem_of_mem_drop hc)) (by simp)]
    have hne : s.take k ≠ [] := by
      intro e
      have := congrArg List.length e
      rw [List.length_take, List.length_nil] at this; omega
    have h1 : (splitGo cur []).filter (fun t => t.any isDigit) = [] := by
      simp only [splitGo]
      split
      · rfl
      · simp [hno cur hc]
    have h2 : splitGo [] (s.take k) = [s.take k] := splitWs_self hne (fun c hc => hs c (List.mem_of_mem_take hc))
    rw [h1, h2]
    simp [number_has_digit isDigit s k h]
  | hno c cs h ih =>
    intro cur hs hc
    rw [findAll, h, spaced, h]
    show (splitGo cur (c :: spaced (matchNumber isDigit) 0 cs)).filter _ = findAll (matchNumber isDigit) 0 cs
    rw [splitGo, if_neg (by rw [hs c (by simp)]; decide)]
    refine ih _ (fun x hx => hs x (by simp [hx])) ?_
    intro x hx
    rcases List.mem_append.1 hx with hx | hx
    · exact hc x hx
    · rw [List.mem_singleton.1 hx]; exact number_none isDigit hm hp h

theorem cut_none (m : Str → Option Nat) (w : Str) (h0 : w ≠ []) (hs : ∀ c ∈ w, isSpace c = false) (h : ∀ t, t <:+ w → m t = none) : cut m w = [w] := by
  have : ∀ t : Str, t <:+ w → spaced m 0 t = t := by
    intro t
    induction t with
    | nil => intro _; rfl
    | cons c t ih =>
      intro ht
      rw [spaced, h _ ht]
      show c :: spaced m 0 t = _
      rw [ih ((List.suffix_cons c t).trans ht)]
  unfold cut
  rw [this w (List.suffix_refl w), splitWs_self h0 hs]

private theorem mem_cut {m : Str → Option Nat} (hp : Proper m) {w t : Str} (ht : t ∈ cut m w) {c : Char} (hc : c ∈ t) : c ∈ w ∨ c = ' ' := by
  have h1 : c ∈ spaced m 0 w := by
    have : c ∈ (splitWs (spaced m 0 w)).flatten := List.mem_flatten.2 ⟨t, ht, hc⟩
    rw [splitWs_flatten] at this
    exact (List.mem_filter.1 this).1
  have : ∀ s : Str, c ∈ spaced m 0 s → c ∈ s ∨ c = ' ' := by
    intro s
    induction s using match_induction m hp with
    | hnil => intro h; cases h
    | hmatch s k h ih =>
      intro hc
      rw [spaced_match m hp s k h] at hc
      rcases List.mem_cons.1 hc with hc | hc
      · exact Or.inr hc
      · rcases List.mem_append.1 hc with hc | hc
        · exact Or.inl (List.mem_of_mem_take hc)
        · rcases List.mem_cons.1 hc with hc | hc
          · exact Or.inr hc
          · exact (ih hc).imp_left List.mem_of_mem_drop
    | hno d cs h ih =>
      intro hc
      rw [spaced, h] at hc
      rcases List.mem_cons.1 hc with hc | hc
      · left; rw [hc]; simp
      · exact (ih hc).imp_left (fun h => by simp [h])
  exact this w h1

private theorem filter_cut (isDigit : Char → Bool) (hsp : ∀ c, isDigit c = true → isSpace c = false) (m : Str → Option Nat) (hp : Proper m) (ws : List Str)
    (hm : ∀ c cs, (isDigit c = true ∨ c = '.' ∨ c = '-' ∨ c = '+') → m (c :: cs) = none) (hm0 : m [] = none)
    (hw : ∀ w ∈ ws, w ≠ [] ∧ (∀ c ∈ w, isSpace c = false) ∧ (w.any isDigit = true → ∀ c ∈ w, isDigit c = true ∨ c = '.' ∨ c = '-' ∨ c = '+')) :
    (ws.flatMap (cut m)).filter (fun t => t.any isDigit) = ws.filter (fun t => t.any isDigit) ∧
      ∀ w ∈ ws.flatMap (cut m), w ≠ [] ∧ (∀ c ∈ w, isSpace c = false) ∧ (w.any isDigit = true → ∀ c ∈ w, isDigit c = true ∨ c = '.' ∨ c = '-' ∨ c = '+') := by
  have key : ∀ w ∈ ws, (w.any isDigit = true → cut m w = [w]) ∧ (w.any isDigit = false → ∀ t ∈ cut m w, t.any isDigit = false) := by
    intro w hww
    obtain ⟨h0, hs, hn⟩ := hw w hww
    refine ⟨fun ha => cut_none m w h0 hs ?_, fun ha t ht => ?_⟩
    · intro t ht
      cases t with
      | nil => exact hm0
      | cons c t => exact hm c t (hn ha c (ht.subset (by simp)))
    · rw [List.any_eq_false] at ha ⊢
      intro c hc hcd
      rcases mem_cut hp ht hc with h | h
      · exact ha c h hcd
      · subst h
        have := hsp ' ' hcd
        revert this; decide
  refine ⟨?_, ?_⟩
  · clear hw
    induction ws with
    | nil => rfl
    | cons w ws ih =>
      rw [List.flatMap_cons, List.filter_append, ih (fun x hx => key x (by simp [hx])), List.filter_cons]
      obtain ⟨k1, k2⟩ := key w (by simp)
      cases ha : w.any isDigit with
      | true => rw [k1 ha]; simp [ha]
      | false =>
        have : (cut m w).filter (fun t => t.any isDigit) = [] := by
          rw [List.filter_eq_nil_iff]
          intro t ht; rw [k2 ha t ht]; decide
        rw [this]; simp
  · intro t ht
    obtain ⟨w, hww, htw⟩ := List.mem_flatMap.1 ht
    refine ⟨splitWs_nonempty htw, splitWs_nospace htw, fun ha => ?_⟩
    cases hwa : w.any isDigit with
    | true =>
      rw [(key w hww).1 hwa, List.mem_singleton] at htw
      subst htw
      exact (hw t hww).2.2 ha
    | false => rw [(key w hww).2 hwa t htw] at ha; cases ha

/-- C17: the number tokens. For every sentence the tokens that contain a digit are, in order, the matches of the literal number pattern in
    the sentence. Of the digits it is assumed that none is whitespace, a dot, a sign, a Korean character or a Latin letter. -/
theorem C17_numbers (isWord isDigit : Char → Bool)
    (hd : ∀ c, isDigit c = true → c.toNat ∉ whitespace ∧ c ≠ '.' ∧ c ≠ '-' ∧ c ≠ '+' ∧ ¬ Korean c ∧ isLatin c = false) (s : List Char) :
    reFindall isWord isDigit "[-+]?\\d*[\\.]?[\\d]+|[-+]?\\d+" s = some ((RegexTok.tokenize isDigit s).filter (fun t => t.any isDigit)) := by
  have hsp : ∀ c, isDigit c = true → isSpace c = false := by
    intro c hc
    cases h : isSpace c
    · rfl
    · exact absurd ((isSpace_iff c).1 h) (hd c hc).1
  have hno : ∀ c, (c = '.' ∨ c = '-' ∨ c = '+') → isDigit c = false := by
    intro c hc
    cases h : isDigit c
    · rfl
    · obtain ⟨_, h1, h2, h3, _⟩ := hd c h
      rcases hc with hc | hc | hc
      · exact absurd hc h1
      · exact absurd hc h2
      · exact absurd hc h3
  have hfind : reFindall isWord isDigit "[-+]?\\d*[\\.]?[\\d]+|[-+]?\\d+" s = some (findAll (matchNumber isDigit) 0 s) := by
    have h := C81_tokenizer isWord isDigit (hno '.' (by simp)) (hno '-' (by simp)) (hno '+' (by simp)) s
    exact (List.cons.inj h).1
  rw [hfind, tokenize_cut isDigit hsp, patterns, List.foldl_cons]
  have hst := stops_number isDigit hsp
  have hfirst : ((splitWs s).flatMap (cut (matchNumber isDigit))).filter (fun t => t.any isDigit) = findAll (matchNumber isDigit) 0 s := by
    rw [by_words (findAll (matchNumber isDigit) 0) rfl (fun a b x hx => findAll_append_space _ (proper_number isDigit) hst a b x hx) s,
      List.filter_flatMap, List.flatMap_def, List.flatMap_def]
    congr 1
    apply List.map_congr_left
    intro w hw
    exact cut_numbers isDigit hsp (hno '-' (by simp)) (hno '+' (by simp)) w [] (splitWs_nospace hw) (by simp)
  have hinv : ∀ w ∈ (splitWs s).flatMap (cut (matchNumber isDigit)), w ≠ [] ∧ (∀ c ∈ w, isSpace c = false) ∧
      (w.any isDigit = true → ∀ c ∈ w, isDigit c = true ∨ c = '.' ∨ c = '-' ∨ c = '+') := by
    intro t ht
    have h1 : t ∈ (splitWs s).flatMap (cut (matchNumber isDigit)) := ht
    obtain ⟨w, hww, htw⟩ := List.mem_flatMap.1 ht
    refine ⟨splitWs_nonempty htw, splitWs_nospace htw, fun ha => ?_⟩
    have : t ∈ findAll (matchNumber isDigit) 0 s := by
      rw [← hfirst, List.mem_filter]; exact ⟨h1, ha⟩
    have hall : ∀ s : Str, ∀ t ∈ findAll (matchNumber isDigit) 0 s, ∀ c ∈ t, isDigit c = true ∨ c = '.' ∨ c = '-' ∨ c = '+' := by
      intro s
      induction s using match_induction (matchNumber isDigit) (proper_number isDigit) with
      | hnil => intro t ht; cases ht
      | hmatch s k h ih =>
        rw [findAll_match _ (proper_number isDigit) s k h]
        intro t ht
        rcases List.mem_cons.1 ht with ht | ht
        · subst ht; exact matchNumber_chars isDigit s k h
        · exact ih t ht
      | hno c cs h ih =>
        rw [findAll, h]
        exact ih
    exact hall s t this
  rw [← hfirst]
  generalize (splitWs s).flatMap (cut (matchNumber isDigit)) = ws at hinv ⊢
  have hchar : ∀ c, (isDigit c = true ∨ c = '.' ∨ c = '-' ∨ c = '+') → ¬ Korean c ∧ isLatin c = false := by
    intro c hc
    rcases hc with hc | rfl | rfl | rfl
    · exact (hd c hc).2.2.2.2
    all_goals exact ⟨by decide, by decide⟩
  have hrun : ∀ p : Char → Bool, (∀ c, p c = true → Korean c) → ∀ c cs, (isDigit c = true ∨ c = '.' ∨ c = '-' ∨ c = '+') → matchRun p (c :: cs) = none := by
    intro p hp c cs hc
    have : p c = false := by
      cases h : p c
      · rfl
      · exact absurd (hp c h) (hchar c hc).1
    simp [matchRun, runLength, this]
  have k1 : ∀ c, isSyllable c = true → Korean c := by
    intro c hc
    simp only [isSyllable, Bool.and_eq_true, decide_eq_true_eq] at hc
    exact Or.inl hc
  have k2 : ∀ c, isJaum c = true → Korean c := by
    intro c hc
    simp only [isJaum, Bool.and_eq_true, decide_eq_true_eq] at hc
    exact Or.inr (Or.inl hc)
  have k3 : ∀ c, isMoum c = true → Korean c := by
    intro c hc
    simp only [isMoum, Bool.and_eq_true, decide_eq_true_eq] at hc
    exact Or.inr (Or.inr hc)
  simp only [List.foldl_cons, List.foldl_nil]
  obtain ⟨a1, b1⟩ := filter_cut isDigit hsp _ (proper_run isSyllable) ws (hrun _ k1) rfl hinv
  obtain ⟨a2, b2⟩ := filter_cut isDigit hsp _ (proper_run isJaum) _ (hrun _ k2) rfl b1
  obtain ⟨a3, b3⟩ := filter_cut isDigit hsp _ (proper_run isMoum) _ (hrun _ k3) rfl b2
  obtain ⟨a4, _⟩ := filter_cut isDigit hsp _ proper_english _ (fun c cs hc => matchEnglish_head.2 (hchar c hc).2) rfl b3
  rw [a4, a3, a2, a1]

example : (∀ c, asciiDigit c = true → c.toNat ∉ whitespace ∧ c ≠ '.' ∧ c ≠ '-' ∧ c ≠ '+' ∧ ¬ Korean c ∧ isLatin c = false) ∧
    reFindall asciiDigit asciiDigit "[-+]?\\d*[\\.]?[\\d]+|[-+]?\\d+" "값3.1.2는 +-7".toList = some ["3.1".toList, ".2".toList, "-7".toList] := by
  refine ⟨?_, by decide +kernel⟩
  intro c hc
  simp only [asciiDigit, decide_eq_true_eq] at hc
  refine ⟨?_, ?_, ?_, ?_, ?_, ?_⟩
  · simp only [whitespace, List.mem_cons, List.not_mem_nil, or_false]; omega
  · rintro rfl; revert hc; decide
  · rintro rfl; revert hc; decide
  · rintro rfl; revert hc; decide
  · rintro (h | h | h) <;> (have := h.1; omega)
  · simp only [isLatin, Bool.or_eq_false_iff, Bool.and_eq_false_iff, decide_eq_false_iff_not]; omega

end Props

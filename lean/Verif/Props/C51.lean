import Verif.Props.C16_C17
import Verif.Props.C81
/-! C51: the Latin tokens of RegexTokenizer. -/
namespace Props
open Py Spec RegexTok

/-- the characters a match of the Latin pattern can contain -/
def eng (c : Char) : Bool := isLatin c || c == '[' || c == '`' || c == '\'' || c == ']'

theorem runLength_append_sep (p : Char → Bool) (a b : Str) (x : Char) (hx : p x = false) : runLength p (a ++ x :: b) = runLength p a := by
  unfold runLength
  congr 1
  induction a with
  | nil => simp [hx]
  | cons c a ih => by_cases h : p c = true <;> simp [h, ih]

private theorem englishBack_append (a b : Str) (x : Char) (hx : (decide (x = ']')) = false) (m : Nat) (hm : m ≤ a.length) :
    englishBack (a ++ x :: b) m = englishBack a m := by
  unfold englishBack
  rw [List.take_append_of_le_length hm, List.drop_append_of_le_length hm, runLength_append_sep (fun c => decide (c = ']')) _ _ _ hx]

theorem matchEnglish_append (a b : Str) (x : Char) (hx : eng x = false) : matchEnglish (a ++ x :: b) = matchEnglish a := by
  simp only [eng, Bool.or_eq_false_iff, beq_eq_false_iff_ne] at hx
  obtain ⟨⟨⟨⟨h1, h2⟩, h3⟩, h4⟩, h5⟩ := hx
  have hs : x ≠ 's' := by rintro rfl; revert h1; decide
  have hb : (decide (x = ']')) = false := by simpa using h5
  unfold matchEnglish
  dsimp only
  rw [runLength_append_sep isLatin a b x h1]
  by_cases h0 : runLength isLatin a = 0
  · rw [if_pos h0, if_pos h0]
  · rw [if_neg h0, if_neg h0]
    have hm : runLength isLatin a ≤ a.length := RegexTok.runLength_le isLatin a
    rw [List.drop_append_of_le_length hm, englishBack_append a b x hb _ hm]
    generalize a.drop (runLength isLatin a) = d
    cases d with
    | nil =>
      cases b with
      | nil => rfl
      | cons y b =>
        simp only [List.nil_append]
        split
        · rename_i q rest he
          obtain ⟨rfl, _⟩ := List.cons.inj he
          rw [if_neg (by simp [h2, h3, h4])]
        · rfl
    | cons q d =>
      cases d with
      | nil =>
        simp only [List.cons_append, List.nil_append]
        split
        · rename_i q' rest he
          obtain ⟨_, he⟩ := List.cons.inj he
          exact absurd (List.cons.inj he).1 hs
        · rfl
      | cons y d =>
        by_cases hy : y = 's'
        · subst hy
          simp only [List.cons_append]
          rw [runLength_append_sep (fun c => decide (c = ']')) d b x hb]
        · have e1 : ∀ r : Str, (match q :: y :: r with
              | q :: 's' :: rest => if (q = '[' || q = '`' || q = '\'') then some (runLength isLatin a + 2 + runLength (fun c => c = ']') rest) else some (englishBack a (runLength isLatin a))
              | _ => some (englishBack a (runLength isLatin a))) = some (englishBack a (runLength isLatin a)) := by
            intro r
            split
            · rename_i he
              obtain ⟨_, he⟩ := List.cons.inj he
              exact absurd (List.cons.inj he).1 hy
            · rfl
          simp only [List.cons_append]
          exact (e1 _).trans (e1 _).symm

theorem matchEnglish_head {c : Char} {cs : Str} : matchEnglish (c :: cs) = none ↔ isLatin c = false := by
  unfold matchEnglish
  dsimp only
  constructor
  · intro h
    cases hc : isLatin c
    · rfl
    · have := runLength_pos (p := isLatin) (cs := cs) hc
      rw [if_neg this] at h
      split at h <;> (try split at h) <;> cases h
  · intro h
    rw [if_pos (by simp [runLength, h])]

theorem findAll_match (m : Str → Option Nat) (hp : Proper m) (s : Str) (k : Nat) (h : m s = some k) :
    findAll m 0 s = s.take k :: findAll m 0 (s.drop k) := by
  have hk := hp s k h
  cases s with
  | nil => simp at hk; omega
  | cons c cs =>
    simp only [findAll, h]
    obtain ⟨j, rfl⟩ : ∃ j, k = j + 1 := ⟨k - 1, by omega⟩
    simp only [List.length_cons] at hk
    rw [Regex.findAll_skip m _ cs (by omega)]
    simp

/-- a character foreign to the pattern separates -/
private theorem findAll_sep (a b : Str) (x : Char) (hx : eng x = false) :
    findAll matchEnglish 0 (a ++ x :: b) = findAll matchEnglish 0 a ++ findAll matchEnglish 0 b := by
  induction a using match_induction matchEnglish proper_english with
  | hnil =>
    have : matchEnglish (x :: b) = none := by
      rw [matchEnglish_head]
      simp only [eng, Bool.or_eq_false_iff] at hx
      exact hx.1.1.1.1
    simp [findAll, this]
  | hmatch s k h ih =>
    have hk := proper_english s k h
    have h' : matchEnglish (s ++ x :: b) = some k := by rw [matchEnglish_append s b x hx]; exact h
    rw [findAll_match _ proper_english _ _ h', findAll_match _ proper_english _ _ h, List.take_append_of_le_length hk.2,
      List.drop_append_of_le_length hk.2, ih]
    rfl
  | hno c cs h ih =>
    have h' : matchEnglish (c :: (cs ++ x :: b)) = none := by
      have := matchEnglish_append (c :: cs) b x hx
      rw [List.cons_append] at this
      rw [this]; exact h
    rw [List.cons_append, findAll, h', findAll, h]
    exact ih

private theorem findAll_foreign (w r : Str) (h : ∀ c ∈ w, eng c = false) : findAll matchEnglish 0 (w ++ r) = findAll matchEnglish 0 r := by
  induction w with
  | nil => rfl
  | cons c w ih =>
    have := findAll_sep [] (w ++ r) c (h c (by simp))
    rw [List.nil_append] at this
    rw [List.cons_append, this, ih (fun x hx => h x (by simp [hx]))]
    rfl

private theorem eng_blank : eng ' ' = false := by decide

/-- the blanks another pattern inserts change nothing -/
private theorem findAll_spaced (m : Str → Option Nat) (hp : Proper m) (hm : ∀ s k, m s = some k → ∀ c ∈ s.take k, eng c = false) (s : Str) :
    ∀ a, findAll matchEnglish 0 (a ++ spaced m 0 s) = findAll matchEnglish 0 (a ++ s) := by
  induction s using match_induction m hp with
  | hnil => intro a; rfl
  | hmatch s k h ih =>
    intro a
    have hk := hp s k h
    rw [spaced_match m hp s k h]
    have hw := hm s k h
    have e : s = s.take k ++ s.drop k := (List.take_append_drop k s).symm
    obtain ⟨x, w, hxw⟩ : ∃ x w, s.take k = x :: w := by
      cases ht : s.take k with
      | nil =>
        have := congrArg List.length ht
        rw [List.length_take, List.length_nil] at this; omega
      | cons x w => exact ⟨x, w, rfl⟩
    rw [findAll_sep a _ ' ' eng_blank, findAll_foreign _ _ hw]
    have h1 : findAll matchEnglish 0 (' ' :: spaced m 0 (s.drop k)) = findAll matchEnglish 0 (s.drop k) := by
      have := findAll_sep [] (spaced m 0 (s.drop k)) ' ' eng_blank
      rw [List.nil_append] at this
      rw [this]
      exact ih []
    rw [h1]
    conv => rhs; rw [e, hxw, List.cons_append, findAll_sep a _ x (hw x (by simp [hxw])),
      findAll_foreign w _ (fun c hc => hw c (by simp [hxw, hc]))]
  | hno c cs h ih =>
    intro a
    rw [spaced, h]
    have := ih (a ++ [c])
    simpa using this

private theorem splitGo_append_blank (a b cur : Str) : splitGo cur (a ++ ' ' :: b) = splitGo cur a ++ splitGo [] b := by
  have hb : isSpace ' ' = true := by decide
  induction a generalizing cur with
  | nil =>
    simp only [List.nil_append, splitGo, hb, if_true]
    split <;> simp
  | cons c a ih =>
    simp only [List.cons_append, splitGo]
    split
    · split
      · exact ih []
      · rw [ih]; rfl
    · exact ih _

private theorem splitWs_append_blank (a b : Str) : splitWs (a ++ ' ' :: b) = splitWs a ++ splitWs b := splitGo_append_blank a b []

private theorem mem_splitWs {s w : Str} (h : w ∈ splitWs s) {c : Char} (hc : c ∈ w) : c ∈ s := by
  have : c ∈ (splitWs s).flatten := List.mem_flatten.2 ⟨w, h, hc⟩
  rw [splitWs_flatten] at this
  exact (List.mem_filter.1 this).1

private theorem latin_not_space {c : Char} (h : isLatin c = true) : isSpace c = false := by
  cases hs : isSpace c
  · rfl
  · rw [isSpace_iff] at hs
    simp only [isLatin, Bool.or_eq_true, Bool.and_eq_true, decide_eq_true_eq] at h
    simp only [whitespace, List.mem_cons, List.not_mem_nil, or_false] at hs
    omega

private theorem match_latin (s : Str) (k : Nat) (h : matchEnglish s = some k) :
    (∀ c ∈ s.take k, isSpace c = false) ∧ (s.take k).any isLatin = true ∧ s.take k ≠ [] := by
  have hk := proper_english s k h
  refine ⟨?_, ?_, ?_⟩
  · intro c hc
    rcases english_chars s k h c hc with h | rfl | rfl | rfl | rfl | rfl
    · exact latin_not_space h
    all_goals decide
  · cases s with
    | nil => simp at hk; omega
    | cons c cs =>
      have hc : isLatin c = true := by
        cases hc : isLatin c
        · rw [matchEnglish_head.2 hc] at h; cases h
        · rfl
      obtain ⟨j, rfl⟩ : ∃ j, k = j + 1 := ⟨k - 1, by omega⟩
      simp [hc]
  · intro h0
    have := congrArg List.length h0
    rw [List.length_take, List.length_nil] at this; omega

/-- after the last step the tokens with a Latin letter are the matches -/
private theorem split_spaced (s : Str) : ∀ a : Str, (∀ c ∈ a, isLatin c = false) →
    (splitWs (a ++ spaced matchEnglish 0 s)).filter (fun t => t.any isLatin) = findAll matchEnglish 0 s := by
  have hno : ∀ a : Str, (∀ c ∈ a, isLatin c = false) → (splitWs a).filter (fun t => t.any isLatin) = [] := by
    intro a ha
    rw [List.filter_eq_nil_iff]
    intro w hw
    simp only [List.any_eq_true, not_exists, not_and, Bool.not_eq_true]
    intro c hc
    exact ha c (mem_splitWs hw hc)
  induction s using match_induction matchEnglish proper_english with
  | hnil => intro a ha; simp only [spaced, List.append_nil, findAll]; exact hno a ha
  | hmatch s k h ih =>
    intro a ha
    obtain ⟨m1, m2, m3⟩ := match_latin s k h
    rw [spaced_match matchEnglish proper_english s k h, splitWs_append_blank, splitWs_append_blank, List.filter_append, hno a ha, List.filter_append,
      List.nil_append, findAll_match matchEnglish proper_english s k h]
    have hone : splitWs (s.take k) = [s.take k] := by
      have := splitWs_join [s.take k] (by intro x hx; simp only [List.mem_singleton] at hx; subst hx; exact ⟨m3, m1⟩)
      simpa [join] using this
    have := ih [] (by simp)
    rw [List.nil_append] at this
    rw [hone, this, List.filter_cons_of_pos (p := fun t : Str => t.any isLatin) m2]
    rfl
  | hno c cs h ih =>
    intro a ha
    rw [spaced, h, findAll, h]
    have := ih (a ++ [c]) (by
      intro x hx
      rcases List.mem_append.1 hx with hx | hx
      · exact ha x hx
      · simp only [List.mem_singleton] at hx; subst hx; exact matchEnglish_head.1 h)
    simpa using this

private theorem findAll_splitWs (s : Str) : (splitWs s).flatMap (findAll matchEnglish 0) = findAll matchEnglish 0 s := by
  have hsp : ∀ c, isSpace c = true → eng c = false := by
    intro c hc
    cases he : eng c
    · rfl
    · simp only [eng, Bool.or_eq_true, beq_iff_eq] at he
      rcases he with (((he | rfl) | rfl) | rfl) | rfl
      · rw [latin_not_space he] at hc; cases hc
      all_goals (revert hc; decide)
  have key : ∀ (s cur : Str), (splitGo cur s).flatMap (findAll matchEnglish 0) = findAll matchEnglish 0 (cur ++ s) := by
    intro s
    induction s with
    | nil =>
      intro cur; simp only [splitGo]; split
      · rename_i h; subst h; rfl
      · simp
    | cons c cs ih =>
      intro cur
      simp only [splitGo]
      cases hc : isSpace c
      · simp only [Bool.false_eq_true, if_false]; rw [ih]; simp
      · simp only [if_true]
        rw [findAll_sep _ _ c (hsp c hc)]
        split
        · rename_i h; subst h; rw [ih]; rfl
        · rw [List.flatMap_cons, ih]; rfl
  exact key s []

private theorem eng_false {c : Char} (h : 0xFF < c.toNat ∨ c.toNat < 0x41) (h' : c ≠ '\'') : eng c = false := by
  simp only [eng, Bool.or_eq_false_iff, beq_eq_false_iff_ne]
  have hl : isLatin c = false := by
    cases hl : isLatin c
    · rfl
    · simp only [isLatin, Bool.or_eq_true, Bool.and_eq_true, decide_eq_true_eq] at hl; omega
  refine ⟨⟨⟨⟨hl, ?_⟩, ?_⟩, h'⟩, ?_⟩ <;> (rintro rfl; revert h; decide)

/-- C51: for every sentence the tokens that contain a Latin letter are, in order, the matches of the literal pattern
    ``[a-zA-ZÀ-ÿ]+[[`']?s]*|[a-zA-ZÀ-ÿ]+`` in the sentence. Of the digits it is only assumed that none is a Latin letter, a quote, a bracket,
    a dot or a sign. -/
theorem C51_latin_tokens (isWord isDigit : Char → Bool)
    (hd : ∀ c, isDigit c = true → isLatin c = false ∧ c ≠ '[' ∧ c ≠ '`' ∧ c ≠ '\'' ∧ c ≠ ']' ∧ c ≠ '.' ∧ c ≠ '-' ∧ c ≠ '+') (s : List Char) :
    Regex.reFindall isWord isDigit "[a-zA-ZÀ-ÿ]+[[`']?s]*|[a-zA-ZÀ-ÿ]+" s =
      some ((RegexTok.tokenize isDigit s).filter (fun t => t.any isLatin)) := by
  have hf : ∀ x, (∀ c, isDigit c = true → c ≠ x) → isDigit x = false := by
    intro x h; cases hx : isDigit x
    · rfl
    · exact absurd rfl (h x hx)
  have hC := C81_tokenizer isWord isDigit (hf _ fun c hc => (hd c hc).2.2.2.2.2.1) (hf _ fun c hc => (hd c hc).2.2.2.2.2.2.1)
    (hf _ fun c hc => (hd c hc).2.2.2.2.2.2.2) s
  have h5 := congrArg (fun l => l[4]?) hC
  simp only [tokenizerPatterns, RegexTok.patterns, List.map_cons, List.map_nil, List.getElem?_cons_succ, List.getElem?_cons_zero, Option.some.injEq] at h5
  rw [h5, tokenize_eq, List.filter_flatMap]
  congr 1
  rw [← findAll_splitWs s, List.flatMap_def, List.flatMap_def]
  congr 1
  refine List.map_congr_left ?_
  intro w _
  rw [tokenizeOne_eq]
  simp only [patterns, List.foldl_cons, List.foldl_nil]
  have hrun : ∀ q : Char → Bool, (∀ c, q c = true → 0xFF < c.toNat) → ∀ v, findAll matchEnglish 0 (applyPattern (matchRun q) v) = findAll matchEnglish 0 v := by
    intro q hq v
    rw [applyPattern_eq_spaced _ (proper_run q) (stable_run q)]
    have := findAll_spaced (matchRun q) (proper_run q) (fun s k h c hc => by
      have := hq c (run_chars q s k h c hc)
      exact eng_false (Or.inl this) (by rintro rfl; revert this; decide)) v []
    simpa using this
  have hnum : ∀ v, findAll matchEnglish 0 (applyPattern (matchNumber isDigit) v) = findAll matchEnglish 0 v := by
    intro v
    rw [applyPattern_eq_spaced _ (proper_number isDigit) (stable_number isDigit)]
    have := findAll_spaced (matchNumber isDigit) (proper_number isDigit) (fun s k h c hc => by
      rcases matchNumber_chars isDigit s k h c hc with h | rfl | rfl | rfl
      · have := hd c h
        simp [eng, this]
      all_goals decide) v []
    simpa using this
  rw [applyPattern_eq_spaced _ proper_english stable_english]
  have := split_spaced (applyPattern (matchRun isMoum) (applyPattern (matchRun isJaum) (applyPattern (matchRun isSyllable) (applyPattern (matchNumber isDigit) w)))) [] (by simp)
  rw [List.nil_append] at this
  rw [this, hrun isMoum (fun c hc => by simp only [isMoum, Bool.and_eq_true, decide_eq_true_eq] at hc; omega),
    hrun isJaum (fun c hc => by simp only [isJaum, Bool.and_eq_true, decide_eq_true_eq] at hc; omega),
    hrun isSyllable (fun c hc => by simp only [isSyllable, Bool.and_eq_true, decide_eq_true_eq] at hc; omega), hnum]


private theorem lastS_none {w : Str} (h : 's' ∉ w.tail) : lastS w = none := by
  unfold lastS
  rw [List.getLast?_eq_none_iff, List.filter_eq_nil_iff]
  intro k _
  simp only [Bool.and_eq_true, decide_eq_true_eq, not_and]
  intro hk hs
  apply h
  obtain ⟨j, rfl⟩ : ∃ j, k = j + 1 := ⟨k - 1, by omega⟩
  cases w with
  | nil => simp at hs
  | cons c w => exact List.mem_of_getElem? (by simpa using hs)

private theorem lastS_some {u v : Str} (hu : u ≠ []) (hv : 's' ∉ v) : lastS (u ++ 's' :: v) = some u.length := by
  have hpos : 0 < u.length := List.length_pos_iff.2 hu
  unfold lastS
  have hl : (u ++ 's' :: v).length = u.length + 1 + v.length := by simp; omega
  rw [hl, List.range_add, List.filter_append]
  have h2 : ((List.range v.length).map (u.length + 1 + ·)).filter (fun k => k ≠ 0 && decide ((u ++ 's' :: v)[k]? = some 's')) = [] := by
    rw [List.filter_eq_nil_iff]
    intro k hk
    obtain ⟨j, hj, rfl⟩ := List.mem_map.1 hk
    simp only [Bool.and_eq_true, decide_eq_true_eq, not_and]
    intro _ hs
    apply hv
    rw [List.getElem?_append_right (by omega)] at hs
    have : u.length + 1 + j - u.length = j + 1 := by omega
    rw [this, List.getElem?_cons_succ] at hs
    exact List.mem_of_getElem? hs
  rw [h2, List.append_nil, List.range_succ, List.filter_append]
  have h3 : List.filter (fun k => k ≠ 0 && decide ((u ++ 's' :: v)[k]? = some 's')) [u.length] = [u.length] := by
    have hs : (u ++ 's' :: v)[u.length]? = some 's' := by simp
    have hne : u.length ≠ 0 := by omega
    simp only [List.filter_cons, hs, hne, ne_eq, not_false_eq_true, decide_true, Bool.and_self, if_true, List.filter_nil]
  rw [h3, List.getLast?_append]
  rfl

private theorem match_word (w : Str) (hl : ∀ c ∈ w, isLatin c = true) (hw : w ≠ []) : matchEnglish w = some (englishBack w w.length) := by
  have hr : runLength isLatin w = w.length := by
    unfold runLength; rw [List.takeWhile_eq_self_iff.2 hl]
  have h0 : w.length ≠ 0 := by have := List.length_pos_iff.2 hw; omega
  unfold matchEnglish
  dsimp only
  rw [hr, if_neg h0, List.drop_length]

/-- all tokens of a Latin word have a Latin letter -/
private theorem word_findAll (isDigit : Char → Bool)
    (hd : ∀ c, isDigit c = true → isLatin c = false ∧ c ≠ '[' ∧ c ≠ '`' ∧ c ≠ '\'' ∧ c ≠ ']' ∧ c ≠ '.' ∧ c ≠ '-' ∧ c ≠ '+') :
    ∀ w : Str, (∀ c ∈ w, isLatin c = true) → RegexTok.tokenize isDigit w = findAll matchEnglish 0 w := by
    intro w hw
    have h1 := C51_latin_tokens (fun _ => false) isDigit hd w
    have h2 : Regex.reFindall (fun _ => false) isDigit "[a-zA-ZÀ-ÿ]+[[`']?s]*|[a-zA-ZÀ-ÿ]+" w = some (findAll matchEnglish 0 w) := by
      have p4 : Regex.parse "[a-zA-ZÀ-ÿ]+[[`']?s]*|[a-zA-ZÀ-ÿ]+" = some Regex.englishRe := by decide +kernel
      unfold Regex.reFindall
      rw [p4]
      exact congrArg some (Regex.findall_eq _ isDigit _ _ (Regex.measures_english _ isDigit) w)
    rw [h2] at h1
    have h3 := Option.some.inj h1
    rw [h3, List.filter_eq_self.2]
    intro t ht
    obtain ⟨l1, l2⟩ := C16_regex_lossless isDigit w
    obtain ⟨c, cs, rfl⟩ := List.exists_cons_of_ne_nil (l2 t ht).1
    have : c ∈ (RegexTok.tokenize isDigit w).flatten := List.mem_flatten.2 ⟨_, ht, by simp⟩
    rw [l1] at this
    simp [hw c (List.mem_filter.1 this).1]

/-- what the pattern makes of a Latin word that stands alone: it is cut behind its last letter `s`, unless that is its first or its last
    letter (or there is none) -/
theorem C51_word (isDigit : Char → Bool)
    (hd : ∀ c, isDigit c = true → isLatin c = false ∧ c ≠ '[' ∧ c ≠ '`' ∧ c ≠ '\'' ∧ c ≠ ']' ∧ c ≠ '.' ∧ c ≠ '-' ∧ c ≠ '+') :
    (∀ u v : List Char, u ≠ [] → v ≠ [] → 's' ∉ v → (∀ c ∈ u ++ 's' :: v, isLatin c = true) →
      RegexTok.tokenize isDigit (u ++ 's' :: v) = [u ++ ['s'], v]) ∧
    (∀ u : List Char, (∀ c ∈ u, isLatin c = true) → RegexTok.tokenize isDigit (u ++ ['s']) = [u ++ ['s']]) ∧
    (∀ w : List Char, w ≠ [] → 's' ∉ w.tail → (∀ c ∈ w, isLatin c = true) → RegexTok.tokenize isDigit w = [w]) := by
  have hall := word_findAll isDigit hd
  have hthird : ∀ w : List Char, w ≠ [] → 's' ∉ w.tail → (∀ c ∈ w, isLatin c = true) → findAll matchEnglish 0 w = [w] := by
    intro w hw hs hl
    have hm := match_word w hl hw
    have he : englishBack w w.length = w.length := by
      unfold englishBack
      rw [List.take_length, lastS_none hs]
    rw [he] at hm
    rw [findAll_match _ proper_english w _ hm, List.take_length, List.drop_length]
    rfl
  refine ⟨?_, ?_, ?_⟩
  · intro u v hu hv hs hl
    rw [hall _ hl]
    have hm := match_word _ hl (by simp)
    have hvpos := List.length_pos_iff.2 hv
    have he : englishBack (u ++ 's' :: v) (u ++ 's' :: v).length = u.length + 1 := by
      unfold englishBack
      rw [List.take_length, lastS_some hu hs]
      simp only
      rw [if_neg (by simp; omega)]
    rw [he] at hm
    have e : u ++ 's' :: v = (u ++ ['s']) ++ v := by simp
    have hlen : (u ++ ['s']).length = u.length + 1 := by simp
    rw [findAll_match _ proper_english _ _ hm, e, List.take_left' hlen, List.drop_left' hlen,
      hthird v hv (fun h => hs (List.mem_of_mem_tail h)) (fun c hc => hl c (by simp [hc]))]
  · intro u hl
    have hl' : ∀ c ∈ u ++ ['s'], isLatin c = true := by
      intro c hc
      rcases List.mem_append.1 hc with h | h
      · exact hl c h
      · simp only [List.mem_singleton] at h; subst h; decide
    rw [hall _ hl']
    by_cases hu : u = []
    · subst hu; exact hthird _ (by simp) (by simp) hl'
    · have hm := match_word _ hl' (by simp)
      have he : englishBack (u ++ ['s']) (u ++ ['s']).length = (u ++ ['s']).length := by
        unfold englishBack
        rw [List.take_length, lastS_some hu (by simp)]
        simp [runLength]
      rw [he] at hm
      rw [findAll_match _ proper_english _ _ hm, List.take_length, List.drop_length]
      rfl
  · intro w hw hs hl
    rw [hall w hl]
    exact hthird w hw hs hl

/-- C51: in a text without quotes and square brackets the tokens with a Latin letter are those of its maximal runs of Latin
    letters, each taken by itself (`C51_word` says what becomes of a run). -/
theorem C51_runs (isDigit : Char → Bool)
    (hd : ∀ c, isDigit c = true → isLatin c = false ∧ c ≠ '[' ∧ c ≠ '`' ∧ c ≠ '\'' ∧ c ≠ ']' ∧ c ≠ '.' ∧ c ≠ '-' ∧ c ≠ '+')
    (s : List Char) (hq : ∀ c ∈ s, c ≠ '[' ∧ c ≠ '`' ∧ c ≠ '\'' ∧ c ≠ ']') :
    (RegexTok.tokenize isDigit s).filter (fun t => t.any isLatin) = (runs isLatin s).flatMap (RegexTok.tokenize isDigit) := by
  have h1 := C51_latin_tokens (fun _ => false) isDigit hd s
  have h2 : Regex.reFindall (fun _ => false) isDigit "[a-zA-ZÀ-ÿ]+[[`']?s]*|[a-zA-ZÀ-ÿ]+" s = some (findAll matchEnglish 0 s) := by
    have p4 : Regex.parse "[a-zA-ZÀ-ÿ]+[[`']?s]*|[a-zA-ZÀ-ÿ]+" = some Regex.englishRe := by decide +kernel
    unfold Regex.reFindall
    rw [p4]
    exact congrArg some (Regex.findall_eq _ isDigit _ _ (Regex.measures_english _ isDigit) s)
  rw [h2] at h1
  rw [← Option.some.inj h1]
  have key : ∀ (s cur : Str), (∀ c ∈ s, c ≠ '[' ∧ c ≠ '`' ∧ c ≠ '\'' ∧ c ≠ ']') → (∀ c ∈ cur, isLatin c = true) →
      findAll matchEnglish 0 (cur ++ s) = (runsGo isLatin cur s).flatMap (RegexTok.tokenize isDigit) := by
    intro s
    induction s with
    | nil =>
      intro cur _ hc
      simp only [runsGo, List.append_nil]
      split
      · rename_i h; subst h; rfl
      · simp [word_findAll isDigit hd cur hc]
    | cons c cs ih =>
      intro cur hs hc
      have hs' := fun x hx => hs x (List.mem_cons_of_mem c hx)
      simp only [runsGo]
      cases hl : isLatin c
      · simp only [Bool.false_eq_true, if_false]
        have he : eng c = false := by
          have := hs c (by simp)
          simp [eng, hl, this]
        rw [findAll_sep cur cs c he]
        have := ih [] hs' (by simp)
        rw [List.nil_append] at this
        split
        · rename_i h; subst h; rw [this]; rfl
        · rw [List.flatMap_cons, this, word_findAll isDigit hd cur hc]
      · simp only [if_true]
        have := ih (cur ++ [c]) hs' (by
          intro x hx
          rcases List.mem_append.1 hx with h | h
          · exact hc x h
          · simp only [List.mem_singleton] at h; subst h; exact hl)
        rw [← this]; simp
  exact key s [] hq (by simp)

example : ∀ c ∈ "yes 가passing5dogs".toList, c ≠ '[' ∧ c ≠ '`' ∧ c ≠ '\'' ∧ c ≠ ']' := by decide
example : runs isLatin "yes 가passing5dogs".toList = ["yes".toList, "passing".toList, "dogs".toList] ∧
    RegexTok.tokenize asciiDigit "yes 가passing5dogs".toList =
      ["yes".toList, "가".toList, "pass".toList, "ing".toList, "5".toList, "dogs".toList] := by decide +kernel

example : (∀ c, asciiDigit c = true → isLatin c = false ∧ c ≠ '[' ∧ c ≠ '`' ∧ c ≠ '\'' ∧ c ≠ ']' ∧ c ≠ '.' ∧ c ≠ '-' ∧ c ≠ '+') ∧
    RegexTok.tokenize asciiDigit "passing".toList = ["pass".toList, "ing".toList] ∧
    RegexTok.tokenize asciiDigit "Bob's5 dogs]가 sea".toList = ["Bob's".toList, "5".toList, "dogs]".toList, "가".toList, "sea".toList] := by
  refine ⟨?_, by decide +kernel, by decide +kernel⟩
  intro c h
  simp only [asciiDigit, decide_eq_true_eq] at h
  refine ⟨?_, ?_, ?_, ?_, ?_, ?_, ?_, ?_⟩
  · cases hl : isLatin c
    · rfl
    · simp only [isLatin, Bool.or_eq_true, Bool.and_eq_true, decide_eq_true_eq] at hl; omega
  all_goals (rintro rfl; revert h; decide)

end Props

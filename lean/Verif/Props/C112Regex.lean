import Verif.Props.C16Exact
import Verif.Props.C110
/-! C112, RegexTokenizer: tokenizing the tokens again. -/
namespace Props
open Py Spec RegexTok

/-- the pattern matches the whole of what it has matched -/
private def Whole (m : Str → Option Nat) : Prop := ∀ v k, m v = some k → m (v.take k) = some k

/-- the pattern leaves the word in one piece: it matches all of it or it matches nowhere in it -/
private def Kept (m : Str → Option Nat) (t : Str) : Prop := m t = some t.length ∨ ∀ u, u <:+ t → m u = none

private theorem take_run (p : Char → Bool) (s : Str) : s.take (runLength p s) = s.takeWhile p := (run_split p s).1

private theorem run_all {p : Char → Bool} {s : Str} (h : ∀ c ∈ s, p c = true) : runLength p s = s.length := by
  unfold runLength
  rw [List.takeWhile_eq_self_iff.2 h]

private theorem run_append {p : Char → Bool} {a b : Str} (ha : ∀ c ∈ a, p c = true) (hb : ∀ c ∈ b.head?, p c = false) : runLength p (a ++ b) = a.length := by
  unfold runLength
  rw [List.takeWhile_append_of_pos ha]
  cases b with
  | nil => simp
  | cons c b => simp [hb c (by simp)]

private theorem run_takeWhile (p : Char → Bool) (s : Str) : runLength p (s.takeWhile p) = runLength p s := by
  unfold runLength; rw [List.takeWhile_takeWhile]; simp

private theorem mem_takeWhile {p : Char → Bool} {s : Str} : ∀ c ∈ s.takeWhile p, p c = true := fun _ hc => List.mem_takeWhile_imp hc

private theorem head_drop_run (p : Char → Bool) (s : Str) : ∀ c ∈ (s.drop (runLength p s)).head?, p c = false := by
  intro c hc
  rw [(run_split p s).2] at hc
  have := List.head?_dropWhile_not p s
  rw [Option.mem_def.1 hc] at this
  simpa using this

private theorem whole_run (p : Char → Bool) : Whole (matchRun p) := by
  intro v k h
  unfold matchRun at h ⊢
  split at h
  · cases h
  · rename_i h0
    have := Option.some.inj h
    subst this
    rw [take_run, run_takeWhile, if_neg h0]

private theorem whole_digits (isDigit : Char → Bool) (hdot : isDigit '.' = false) : Whole (matchDigits isDigit) := by
  intro v k h
  have hsplit : v = v.takeWhile isDigit ++ v.drop (runLength isDigit v) := by
    rw [← take_run, List.take_append_drop]
  have hlen : (v.takeWhile isDigit).length = runLength isDigit v := rfl
  generalize hA : v.takeWhile isDigit = A at *
  generalize hB : v.drop (runLength isDigit v) = B at *
  have hAd : ∀ c ∈ A, isDigit c = true := by rw [← hA]; exact mem_takeWhile
  have hrunA : runLength isDigit A = A.length := run_all hAd
  have hBhead : ∀ c ∈ B.head?, isDigit c = false := by rw [← hB]; exact head_drop_run isDigit v
  -- a word of digits only
  have hdig : A.length ≠ 0 → matchDigits isDigit A = some A.length := by
    intro h0
    unfold matchDigits
    simp only [hrunA, List.drop_length]
    rw [if_pos h0]
  unfold matchDigits at h
  simp only [hB] at h
  split at h
  · rename_i rest
    split at h
    · rename_i hf
      have := Option.some.inj h
      subst this
      have ht : v.take (runLength isDigit v + 1 + runLength isDigit rest) = A ++ '.' :: rest.takeWhile isDigit := by
        rw [← hlen]
        conv_lhs => rw [hsplit]
        rw [Nat.add_assoc, List.take_length_add_append]
        rw [Nat.add_comm 1, List.take_succ_cons, take_run]
      rw [ht]
      unfold matchDigits
      have hr : runLength isDigit (A ++ '.' :: rest.takeWhile isDigit) = A.length := run_append hAd (by simpa using hdot)
      simp only [hr]
      rw [List.drop_left' rfl]
      simp only [run_takeWhile]
      rw [if_pos hf, hlen]
    · split at h
      · rename_i hd
        have := Option.some.inj h
        subst this
        rw [take_run, hA, ← hlen]
        exact hdig (by omega)
      · cases h
  · split at h
    · rename_i hd
      have := Option.some.inj h
      subst this
      rw [take_run, hA, ← hlen]
      exact hdig (by omega)
    · cases h

private theorem whole_number (isDigit : Char → Bool) (hdot : isDigit '.' = false) : Whole (matchNumber isDigit) := by
  intro v k h
  have hk := (proper_number isDigit v k h).1
  cases v with
  | nil => cases h
  | cons c rest =>
    obtain ⟨n, rfl⟩ : ∃ n, k = n + 1 := ⟨k - 1, by omega⟩
    simp only [matchNumber] at h
    rw [List.take_succ_cons]
    simp only [matchNumber]
    split at h
    · rename_i hc
      rw [if_pos hc]
      cases hm : matchDigits isDigit rest with
      | none => rw [hm] at h; cases h
      | some j =>
        rw [hm] at h
        have := Option.some.inj h
        have : j = n := Nat.succ.inj this
        subst this
        rw [whole_digits isDigit hdot rest j hm]; rfl
    · rename_i hc
      rw [if_neg hc]
      have := whole_digits isDigit hdot _ _ h
      rwa [List.take_succ_cons] at this

private theorem lastS_prefix {w : Str} {j : Nat} (h : lastS w = some j) : lastS (w.take (j + 1)) = some j := by
  have hmem := List.mem_of_getLast? h
  simp only [List.mem_filter, List.mem_range, Bool.and_eq_true, decide_eq_true_eq] at hmem
  obtain ⟨hj, h0, hs⟩ := hmem
  unfold lastS
  have hl : (w.take (j + 1)).length = j + 1 := by rw [List.length_take]; omega
  rw [hl, List.range_succ, List.filter_append]
  have : List.filter (fun k => decide (k ≠ 0) && decide ((w.take (j + 1))[k]? = some 's')) [j] = [j] := by
    rw [List.filter_cons_of_pos]
    · rfl
    · rw [List.getElem?_take_of_lt (by omega), hs]
      simpa using h0
  rw [this]
  simp

private theorem whole_english : Whole matchEnglish := by
  intro v k h
  have hsplit : v = v.takeWhile isLatin ++ v.drop (runLength isLatin v) := by
    rw [← take_run, List.take_append_drop]
  have hlen : (v.takeWhile isLatin).length = runLength isLatin v := rfl
  have htk := take_run isLatin v
  generalize hA : v.takeWhile isLatin = A at *
  generalize hB : v.drop (runLength isLatin v) = B at *
  have hAl : ∀ c ∈ A, isLatin c = true := by rw [← hA]; exact mem_takeWhile
  have hrunA : runLength isLatin A = A.length := run_all hAl
  have hBhead : ∀ c ∈ B.head?, isLatin c = false := by rw [← hB]; exact head_drop_run isLatin v
  unfold matchEnglish at h
  rw [← hlen] at h hB htk
  dsimp only at h
  split at h
  · cases h
  · rename_i h0
    rw [hB] at h
    -- the back-off on the part that was matched
    have hback : k = englishBack v A.length → matchEnglish (v.take k) = some k := by
      intro hk
      unfold englishBack at hk
      rw [htk] at hk
      cases hs : lastS A with
      | none =>
        rw [hs] at hk
        dsimp only at hk
        rw [hk, htk]
        unfold matchEnglish
        simp only [hrunA, if_neg h0, List.drop_length]
        unfold englishBack
        rw [List.take_length, hs]
      | some j =>
        rw [hs] at hk
        dsimp only at hk
        have hj := lastS_lt hs
        split at hk
        · rename_i hjm
          rw [hB] at hk
          have ht : v.take k = A ++ B.takeWhile (fun c => c = ']') := by
            rw [hk]
            conv_lhs => rw [hsplit]
            rw [List.take_length_add_append, take_run]
          rw [ht]
          have hr : runLength isLatin (A ++ B.takeWhile (fun c => c = ']')) = A.length := by
            refine run_append hAl ?_
            intro c hc
            have := mem_takeWhile c (List.mem_of_mem_head? hc)
            rw [show c = ']' by simpa using this]
            decide
          unfold matchEnglish
          simp only [hr, if_neg h0]
          rw [List.drop_left' rfl]
          have hres : englishBack (A ++ B.takeWhile (fun c => c = ']')) A.length = k := by
            unfold englishBack
            rw [List.take_left' rfl, hs]
            dsimp only
            rw [if_pos hjm, List.drop_left' rfl, run_takeWhile, hk]
          split
          · rename_i q rest he
            exfalso
            have : 's' ∈ B.takeWhile (fun c => decide (c = ']')) := by rw [he]; simp
            have := mem_takeWhile _ this
            simp at this
          · rw [hres]
        · rename_i hjm
          have ht : v.take k = A.take (j + 1) := by
            rw [← htk, List.take_take, hk]
            congr 1
            omega
          rw [ht]
          have hl : (A.take (j + 1)).length = j + 1 := by rw [List.length_take]; omega
          have hr : runLength isLatin (A.take (j + 1)) = j + 1 := by
            rw [run_all (fun c hc => hAl c (List.mem_of_mem_take hc)), hl]
          unfold matchEnglish
          simp only [hr]
          rw [if_neg (by omega)]
          have hd : (A.take (j + 1)).drop (j + 1) = [] := List.drop_eq_nil_of_le (by omega)
          rw [hd]
          dsimp only
          unfold englishBack
          rw [List.take_of_length_le (by omega), lastS_prefix hs]
          dsimp only
          rw [if_pos rfl, hd, hk]
          rfl
    split at h
    · rename_i q rest
      split at h
      · rename_i hq
        have hk := Option.some.inj h
        have ht : v.take k = A ++ q :: 's' :: rest.takeWhile (fun c => c = ']') := by
          rw [← hk]
          conv_lhs => rw [hsplit]
          rw [Nat.add_assoc, List.take_length_add_append, Nat.add_comm 2, List.take_succ_cons, List.take_succ_cons, take_run]
        rw [ht]
        have hr : runLength isLatin (A ++ q :: 's' :: rest.takeWhile (fun c => c = ']')) = A.length := run_append hAl (by simpa using hBhead)
        unfold matchEnglish
        simp only [hr, if_neg h0]
        rw [List.drop_left' rfl]
        simp only [if_pos hq, run_takeWhile, hk]
      · exact hback (Option.some.inj h).symm
    · exact hback (Option.some.inj h).symm

private theorem splitWs_blank (a b : Str) : splitWs (a ++ ' ' :: b) = splitWs a ++ splitWs b := splitWs_joined a b ' ' (by decide)

private theorem none_nil {m : Str → Option Nat} (hp : Proper m) : m [] = none := by
  cases h : m [] with
  | none => rfl
  | some k => have := hp _ _ h; simp at this; omega

private theorem piece_kept {m : Str → Option Nat} (hp : Proper m) (hs : Stable m) (hw : Whole m) (s : Str) : ∀ a : Str, (∀ c ∈ a ++ s, isSpace c = false) →
    (∀ u, u <:+ a → u ≠ [] → m (u ++ s) = none) → ∀ t ∈ splitWs (a ++ spaced m 0 s), t <:+: a ++ s ∧ Kept m t := by
  have hgap : ∀ a s : Str, (∀ u, u <:+ a → u ≠ [] → m (u ++ s) = none) → ∀ u, u <:+ a → m u = none := by
    intro a s h u hu
    by_cases h0 : u = []
    · rw [h0]; exact none_nil hp
    · cases hm : m u with
      | none => rfl
      | some k =>
        exact absurd (h u hu h0) (hs _ u k hm ((List.take_prefix _ _).trans (List.prefix_append _ _)))
  have hself : ∀ a : Str, (∀ c ∈ a, isSpace c = false) → ∀ t ∈ splitWs a, t = a := by
    intro a ha t ht
    by_cases h0 : a = []
    · rw [h0] at ht; cases ht
    · rw [splitWs_self h0 ha] at ht
      exact List.mem_singleton.1 ht
  induction s using match_induction m hp with
  | hnil =>
    intro a hns hno t ht
    rw [show spaced m 0 [] = [] from rfl, List.append_nil] at ht
    rw [List.append_nil] at hns ⊢
    rw [hself a hns t ht]
    exact ⟨List.infix_refl _, Or.inr (hgap a [] hno)⟩
  | hmatch s k h ih =>
    intro a hns hno t ht
    rw [spaced_match m hp s k h, splitWs_blank, splitWs_blank] at ht
    rcases List.mem_append.1 ht with ht | ht
    · rw [hself a (fun c hc => hns c (by simp [hc])) t ht]
      exact ⟨(List.prefix_append _ _).isInfix, Or.inr (hgap a s hno)⟩
    · rcases List.mem_append.1 ht with ht | ht
      · rw [hself _ (fun c hc => hns c (by simp [List.mem_of_mem_take hc])) t ht]
        refine ⟨⟨a, s.drop k, by rw [List.append_assoc, List.take_append_drop]⟩, Or.inl ?_⟩
        rw [hw s k h, List.length_take]
        have := (hp s k h).2
        rw [Nat.min_eq_left this]
      · obtain ⟨h1, h2⟩ := ih [] (fun c hc => hns c (by simp [List.mem_of_mem_drop (by simpa using hc)])) (fun u hu h0 => absurd (List.suffix_nil.1 hu) h0) t (by simpa using ht)
        refine ⟨h1.trans ?_, h2⟩
        rw [List.nil_append]
        exact (List.drop_suffix _ _).isInfix.trans (List.suffix_append _ _).isInfix
  | hno c cs h ih =>
    intro a hns hno t ht
    have h3 := ih (a ++ [c]) (by simpa using hns) (by
      intro u hu h0
      rcases List.suffix_concat_iff.1 hu with hu | ⟨v, hv, hu⟩
      · exact absurd hu h0
      · rw [hv]
        by_cases hv0 : v = []
        · subst hv0
          simpa using h
        · have := hno v hu hv0
          simpa using this) t (by
      rw [spaced, h] at ht
      simpa using ht)
    simpa using h3

private theorem kept_infix {m : Str → Option Nat} (hs : Stable m) {w t : Str} (ht : t <:+: w) (h : ∀ u, u <:+ w → m u = none) : ∀ u, u <:+ t → m u = none := by
  intro u hu
  obtain ⟨p, q, rfl⟩ := ht
  obtain ⟨v, rfl⟩ := hu
  cases hm : m u with
  | none => rfl
  | some k =>
    have h1 := hs (u ++ q) u k hm ((List.take_prefix _ _).trans (List.prefix_append _ _))
    exact absurd (h (u ++ q) ⟨p ++ v, by simp⟩) h1

private theorem kept_cut {m : Str → Option Nat} (hp : Proper m) {t : Str} (h0 : t ≠ []) (hns : ∀ c ∈ t, isSpace c = false) (h : Kept m t) : cut m t = [t] := by
  rcases h with h | h
  · unfold cut
    rw [spaced_match m hp t _ h, List.take_length, List.drop_length, show spaced m 0 [] = [] from rfl]
    have := splitWs_blank [] (t ++ ' ' :: [])
    rw [List.nil_append] at this
    rw [this, splitWs_blank, splitWs_self h0 hns]
    rfl
  · exact cut_none m t h0 hns h

/-- what pattern `m` takes whole, pattern `m'` does not touch -/
private def Apart2 (m m' : Str → Option Nat) : Prop := ∀ w, m w = some w.length → ∀ u, u <:+ w → m' u = none

private theorem fold_kept (done ms : List (Str → Option Nat)) (hp : ∀ m ∈ ms, Proper m) (hs : ∀ m ∈ done ++ ms, Stable m) (hw : ∀ m ∈ ms, Whole m)
    (hd : (done ++ ms).Pairwise Apart2) (ws : List Str) (hws : Words ws) (hk : ∀ w ∈ ws, ∀ m ∈ done, Kept m w) :
    Words (ms.foldl (fun ws m => ws.flatMap (cut m)) ws) ∧ ∀ t ∈ ms.foldl (fun ws m => ws.flatMap (cut m)) ws, ∀ m ∈ done ++ ms, Kept m t := by
  induction ms generalizing done ws with
  | nil =>
    refine ⟨hws, fun t ht m hm => hk t ht m ?_⟩
    simpa using hm
  | cons m ms ih =>
    rw [List.foldl_cons]
    have hassoc : done ++ m :: ms = (done ++ [m]) ++ ms := by simp
    rw [hassoc]
    rw [hassoc] at hs hd
    refine ih (done ++ [m]) (fun x hx => hp x (by simp [hx])) hs (fun x hx => hw x (by simp [hx])) hd _ ?_ ?_
    · intro t ht
      obtain ⟨w, _, ht⟩ := List.mem_flatMap.1 ht
      exact ⟨splitWs_nonempty ht, splitWs_nospace ht⟩
    · intro t ht x hx
      obtain ⟨w, hww, ht⟩ := List.mem_flatMap.1 ht
      have hpiece := piece_kept (hp m (by simp)) (hs m (by simp)) (hw m (by simp)) w [] (by simpa using (hws w hww).2)
        (fun u hu h0 => absurd (List.suffix_nil.1 hu) h0) t (by simpa [cut] using ht)
      rw [List.nil_append] at hpiece
      rcases List.mem_append.1 hx with hx | hx
      · rcases hk w hww x hx with h | h
        · have hap : Apart2 x m := (List.pairwise_append.1 (List.pairwise_append.1 hd).1).2.2 x hx m (by simp)
          have hc := cut_none m w (hws w hww).1 (hws w hww).2 (hap w h)
          rw [hc, List.mem_singleton] at ht
          rw [ht]
          exact Or.inl h
        · exact Or.inr (kept_infix (hs x (by simp [hx])) hpiece.1 h)
      · rw [List.mem_singleton.1 hx]
        exact hpiece.2

private theorem fold_same (ms : List (Str → Option Nat)) (hp : ∀ m ∈ ms, Proper m) (ws : List Str) (hws : Words ws) (hk : ∀ w ∈ ws, ∀ m ∈ ms, Kept m w) :
    ms.foldl (fun ws m => ws.flatMap (cut m)) ws = ws := by
  induction ms with
  | nil => rfl
  | cons m ms ih =>
    rw [List.foldl_cons]
    have : ws.flatMap (cut m) = ws := by
      clear ih
      induction ws with
      | nil => rfl
      | cons w ws ihw =>
        rw [List.flatMap_cons, ihw (fun v hv => hws v (by simp [hv])) (fun v hv => hk v (by simp [hv])),
          kept_cut (hp m (by simp)) (hws w (by simp)).1 (hws w (by simp)).2 (hk w (by simp) m (by simp))]
        rfl
    rw [this]
    exact ih (fun x hx => hp x (by simp [hx])) (fun v hv x hx => hk v hv x (by simp [hx]))

private theorem run_none {p : Char → Bool} {u : Str} (h : ∀ c ∈ u, p c = false) : matchRun p u = none := by
  unfold matchRun
  rw [if_pos]
  unfold runLength
  cases u with
  | nil => rfl
  | cons c u => simp [h c (by simp)]

private theorem english_none {u : Str} (h : ∀ c ∈ u, isLatin c = false) : matchEnglish u = none := by
  cases u with
  | nil => rfl
  | cons c u => exact matchEnglish_head.2 (h c (by simp))

/-- C112 (e): tokenizing the output of RegexTokenizer again changes nothing. Of the digits it is assumed that none is whitespace, a dot, a Korean character
    or a Latin letter (this holds of `\d`). -/
theorem C112_regex (isDigit : Char → Bool)
    (hd : ∀ c, isDigit c = true → c.toNat ∉ whitespace ∧ c ≠ '.' ∧ ¬ Korean c ∧ isLatin c = false) (s : List Char) :
    RegexTok.tokenize isDigit (join [' '] (RegexTok.tokenize isDigit s)) = RegexTok.tokenize isDigit s := by
  have hsp : ∀ c, isDigit c = true → isSpace c = false := by
    intro c hc
    cases h : isSpace c
    · rfl
    · exact absurd ((isSpace_iff c).1 h) (hd c hc).1
  have hdot : isDigit '.' = false := by
    cases h : isDigit '.'
    · rfl
    · exact absurd rfl (hd _ h).2.1
  have hwhole : ∀ m ∈ patterns isDigit, Whole m := by
    intro m hm
    simp only [patterns, List.mem_cons, List.not_mem_nil, or_false] at hm
    rcases hm with rfl | rfl | rfl | rfl | rfl
    · exact whole_number isDigit hdot
    · exact whole_run _
    · exact whole_run _
    · exact whole_run _
    · exact whole_english
  have hnum : ∀ c, (isDigit c = true ∨ c = '.' ∨ c = '-' ∨ c = '+') → isSyllable c = false ∧ isJaum c = false ∧ isMoum c = false ∧ isLatin c = false := by
    rintro c (h | rfl | rfl | rfl)
    · obtain ⟨_, _, h1, h2⟩ := hd c h
      refine ⟨?_, ?_, ?_, h2⟩
      · cases h' : isSyllable c
        · rfl
        · exact absurd (by simp only [isSyllable, Bool.and_eq_true, decide_eq_true_eq] at h'; unfold Korean Syllable Consonant Vowel; omega) h1
      · cases h' : isJaum c
        · rfl
        · exact absurd (by simp only [isJaum, Bool.and_eq_true, decide_eq_true_eq] at h'; unfold Korean Syllable Consonant Vowel; omega) h1
      · cases h' : isMoum c
        · rfl
        · exact absurd (by simp only [isMoum, Bool.and_eq_true, decide_eq_true_eq] at h'; unfold Korean Syllable Consonant Vowel; omega) h1
    · decide
    · decide
    · decide
  have hclass : ∀ c, (isSyllable c = true → isJaum c = false ∧ isMoum c = false ∧ isLatin c = false) ∧ (isJaum c = true → isMoum c = false ∧ isLatin c = false) ∧
      (isMoum c = true → isLatin c = false) := by
    intro c
    simp only [isSyllable, isJaum, isMoum, isLatin, Bool.and_eq_true, decide_eq_true_eq, Bool.or_eq_false_iff, Bool.and_eq_false_iff, decide_eq_false_iff_not]
    omega
  have hnumc : ∀ w, matchNumber isDigit w = some w.length → ∀ u, u <:+ w → ∀ c ∈ u, isDigit c = true ∨ c = '.' ∨ c = '-' ∨ c = '+' := by
    intro w h u hu c hc
    have := matchNumber_chars isDigit w _ h c
    rw [List.take_length] at this
    exact this (hu.subset hc)
  have hrunc : ∀ (p : Char → Bool) w, matchRun p w = some w.length → ∀ u, u <:+ w → ∀ c ∈ u, p c = true := by
    intro p w h u hu c hc
    have := run_chars p w _ h c
    rw [List.take_length] at this
    exact this (hu.subset hc)
  have hpair : (patterns isDigit).Pairwise Apart2 := by
    unfold patterns
    refine List.pairwise_cons.2 ⟨?_, List.pairwise_cons.2 ⟨?_, List.pairwise_cons.2 ⟨?_, List.pairwise_cons.2 ⟨?_, by simp⟩⟩⟩⟩
    · intro m hm w h u hu
      have := hnumc w h u hu
      simp only [List.mem_cons, List.not_mem_nil, or_false] at hm
      rcases hm with rfl | rfl | rfl | rfl
      · exact run_none (fun c hc => (hnum c (this c hc)).1)
      · exact run_none (fun c hc => (hnum c (this c hc)).2.1)
      · exact run_none (fun c hc => (hnum c (this c hc)).2.2.1)
      · exact english_none (fun c hc => (hnum c (this c hc)).2.2.2)
    · intro m hm w h u hu
      have := hrunc _ w h u hu
      simp only [List.mem_cons, List.not_mem_nil, or_false] at hm
      rcases hm with rfl | rfl | rfl
      · exact run_none (fun c hc => ((hclass c).1 (this c hc)).1)
      · exact run_none (fun c hc => ((hclass c).1 (this c hc)).2.1)
      · exact english_none (fun c hc => ((hclass c).1 (this c hc)).2.2)
    · intro m hm w h u hu
      have := hrunc _ w h u hu
      simp only [List.mem_cons, List.not_mem_nil, or_false] at hm
      rcases hm with rfl | rfl
      · exact run_none (fun c hc => ((hclass c).2.1 (this c hc)).1)
      · exact english_none (fun c hc => ((hclass c).2.1 (this c hc)).2)
    · intro m hm w h u hu
      have := hrunc _ w h u hu
      simp only [List.mem_cons, List.not_mem_nil, or_false] at hm
      subst hm
      exact english_none (fun c hc => (hclass c).2.2 (this c hc))
  have hk := fold_kept [] (patterns isDigit) (proper_patterns isDigit) (stable_patterns isDigit) hwhole hpair (splitWs s) (splitWs_words s) (by simp)
  rw [← tokenize_cut isDigit hsp] at hk
  rw [tokenize_cut isDigit hsp (join [' '] _), splitWs_join _ hk.1]
  exact fold_same _ (proper_patterns isDigit) _ hk.1 hk.2

/-- the hypothesis holds of the ASCII digits -/
example : ∀ c : Char, (48 ≤ c.toNat ∧ c.toNat ≤ 57) → c.toNat ∉ whitespace ∧ c ≠ '.' ∧ ¬ Korean c ∧ isLatin c = false := by
  intro c hc
  refine ⟨?_, ?_, ?_, ?_⟩
  · simp only [whitespace, List.mem_cons, List.not_mem_nil, or_false]; omega
  · rintro rfl; simp at hc
  · unfold Korean Syllable Consonant Vowel; omega
  · simp only [isLatin, Bool.or_eq_false_iff, Bool.and_eq_false_iff, decide_eq_false_iff_not]; omega

example : RegexTok.tokenize (fun c => decide (48 ≤ c.toNat ∧ c.toNat ≤ 57)) "그게2.5배ㅋㅋfriend's임!".toList =
    ["그게".toList, "2.5".toList, "배".toList, "ㅋㅋ".toList, "friend's".toList, "임".toList, "!".toList] := by decide +kernel

end Props

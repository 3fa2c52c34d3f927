import Verif.Proofs.RegexTok2
/-! C16, C17: RegexTokenizer. C51: how it treats English words. -/
namespace Props
open Py Spec RegexTok

private theorem fold_ink (ms : List (Str → Option Nat)) (h : ∀ m ∈ ms, Proper m) (s : Str) :
    ink (ms.foldl (fun s m => applyPattern m s) s) = ink s := by
  induction ms generalizing s with
  | nil => rfl
  | cons m ms ih =>
    simp only [List.foldl_cons]
    rw [ih (fun x hx => h x (by simp [hx])), applyPattern_ink m (h m (by simp))]

theorem tokenizeOne_eq (isDigit : Char → Bool) (s : Str) :
    tokenizeOne isDigit s = splitWs ((patterns isDigit).foldl (fun s m => applyPattern m s) s) := by
  unfold tokenizeOne
  rw [strip_collapse, splitWs_join _ (splitWs_words _)]

theorem tokenize_eq (isDigit : Char → Bool) (s : Str) :
    RegexTok.tokenize isDigit s = (splitWs s).flatMap (tokenizeOne isDigit) := by
  unfold RegexTok.tokenize
  rw [List.filter_eq_self]
  intro t ht
  obtain ⟨w, _, hw⟩ := List.mem_flatMap.1 ht
  rw [tokenizeOne_eq] at hw
  simpa using splitWs_nonempty hw

/-- Lossless: the tokens spell the sentence without its whitespace, and no token is empty or contains whitespace. -/
theorem C16_regex_lossless (isDigit : Char → Bool) (s : List Char) :
    (RegexTok.tokenize isDigit s).flatten = s.filter (fun c => decide (c.toNat ∉ whitespace)) ∧
      ∀ t ∈ RegexTok.tokenize isDigit s, t ≠ [] ∧ ∀ c ∈ t, c.toNat ∉ whitespace := by
  have hf : (fun c => !isSpace c) = (fun c : Char => decide (c.toNat ∉ whitespace)) := by
    funext c
    have := isSpace_iff c
    rw [Bool.eq_iff_iff, decide_eq_true_iff, Bool.not_eq_true', ← this]
    simp
  rw [tokenize_eq]
  constructor
  · rw [← hf, ← splitWs_flatten]
    have hw := splitWs_words s
    generalize splitWs s = ws at hw
    induction ws with
    | nil => rfl
    | cons w ws ih =>
      rw [List.flatMap_cons, List.flatten_append, ih (fun x hx => hw x (by simp [hx])), List.flatten_cons]
      congr 1
      rw [tokenizeOne_eq, splitWs_flatten]
      have := fold_ink (patterns isDigit) (proper_patterns isDigit) w
      unfold ink at this
      rw [this, List.filter_eq_self]
      intro c hc; simp [(hw w (by simp)).2 c hc]
  · intro t ht
    obtain ⟨w, _, hw⟩ := List.mem_flatMap.1 ht
    rw [tokenizeOne_eq] at hw
    refine ⟨splitWs_nonempty hw, fun c hc hn => ?_⟩
    rw [← isSpace_iff] at hn
    rw [splitWs_nospace hw c hc] at hn; cases hn

theorem english_chars (s : Str) (k : Nat) (h : matchEnglish s = some k) :
    ∀ c ∈ s.take k, isLatin c = true ∨ c = '[' ∨ c = '`' ∨ c = '\'' ∨ c = 's' ∨ c = ']' := by
  have hlat : ∀ c ∈ s.take (runLength isLatin s), isLatin c = true := by
    intro c hc; rw [(run_split isLatin s).1] at hc; exact List.mem_takeWhile_imp hc
  have hbr : ∀ t : Str, ∀ c ∈ t.take (runLength (fun c => decide (c = ']')) t), c = ']' := by
    intro t c hc; rw [(run_split _ t).1] at hc; simpa using List.mem_takeWhile_imp hc
  have htake : ∀ (j : Nat), ∀ c ∈ s.take (runLength isLatin s + j),
      isLatin c = true ∨ c ∈ (s.drop (runLength isLatin s)).take j := by
    intro j c hc
    rw [List.take_add] at hc
    rcases List.mem_append.1 hc with hc | hc
    · exact Or.inl (hlat c hc)
    · exact Or.inr hc
  have hback : ∀ c ∈ s.take (englishBack s (runLength isLatin s)), isLatin c = true ∨ c = ']' := by
    intro c hc
    unfold englishBack at hc
    split at hc
    · rename_i i hi
      have := lastS_lt hi
      rw [List.length_take] at this
      split at hc
      · rcases htake _ c hc with h | h
        · exact Or.inl h
        · exact Or.inr (hbr _ c h)
      · left
        refine hlat c ?_
        have hle : i + 1 ≤ runLength isLatin s := by omega
        exact (List.take_subset_take_left s hle) hc
    · exact Or.inl (hlat c hc)
  unfold matchEnglish at h
  dsimp only at h
  split at h
  · cases h
  · split at h
    · rename_i q rest hd
      split at h
      · rename_i hq
        simp only [Option.some.injEq] at h; subst h
        intro c hc
        rw [Nat.add_assoc] at hc
        rcases htake _ c hc with h | h
        · exact Or.inl h
        · rw [hd, Nat.add_comm 2] at h
          rw [List.take_succ_cons, List.take_succ_cons] at h
          rcases List.mem_cons.1 h with rfl | h
          · simp at hq; rcases hq with (h | h) | h <;> simp [h]
          · rcases List.mem_cons.1 h with rfl | h
            · simp
            · simp [hbr _ c h]
      · simp only [Option.some.injEq] at h; subst h
        intro c hc; rcases hback c hc with h | h <;> simp [h]
    · simp only [Option.some.injEq] at h; subst h
      intro c hc; rcases hback c hc with h | h <;> simp [h]

theorem run_chars (q : Char → Bool) (s : Str) (k : Nat) (h : matchRun q s = some k) : ∀ c ∈ s.take k, q c = true := by
  obtain ⟨rfl, _⟩ := matchRun_some h
  rw [(run_split q s).1]
  intro c hc; exact List.mem_takeWhile_imp hc

/-- one class `p` whose pattern is the run pattern and which the other patterns do not touch -/
private theorem class_core (ms : List (Str → Option Nat)) (hpr : ∀ m ∈ ms, Proper m) (p : Char → Bool) (hp : matchRun p ∈ ms)
    (hs : ∀ c, p c = true → isSpace c = false)
    (hst : ∀ m ∈ ms, Stable m)
    (hother : ∀ m ∈ ms, m = matchRun p ∨ ∀ s k, m s = some k → ∀ c ∈ s.take k, p c = false) (s : Str) :
    ((splitWs s).flatMap (fun w => splitWs (ms.foldl (fun s m => applyPattern m s) w))).filter (fun t => t.any p) = runs p s := by
  have hb : p ' ' = false := by
    cases h : p ' '
    · rfl
    · have := hs _ h; simp at this
  have hruns : ∀ (ns : List (Str → Option Nat)), (∀ m ∈ ns, m ∈ ms) → ∀ s,
      runs p (ns.foldl (fun s m => applyPattern m s) s) = runs p s := by
    intro ns
    induction ns with
    | nil => intro _ s; rfl
    | cons m ns ih =>
      intro h s
      have hm := h m (by simp)
      simp only [List.foldl_cons]
      rw [ih (fun x hx => h x (by simp [hx])), applyPattern_eq_spaced m (hpr m hm) (hst m hm)]
      rcases hother m hm with rfl | ho
      · exact runs_spaced_own p hb s
      · exact runs_spaced_other p hb m (hpr m hm) ho s
  have hsep : ∀ (ns : List (Str → Option Nat)), (∀ m ∈ ns, m ∈ ms) → ∀ s,
      (Sep p s ∨ matchRun p ∈ ns) → Sep p (ns.foldl (fun s m => applyPattern m s) s) := by
    intro ns
    induction ns with
    | nil => intro _ s h; rcases h with h | h
             · exact h
             · cases h
    | cons m ns ih =>
      intro h s hor
      have hm := h m (by simp)
      simp only [List.foldl_cons]
      refine ih (fun x hx => h x (by simp [hx])) _ ?_
      rw [applyPattern_eq_spaced m (hpr m hm) (hst m hm)]
      rcases hor with hor | hor
      · exact Or.inl (sep_spaced p m (hpr m hm) s hor)
      · rcases List.mem_cons.1 hor with rfl | hor
        · exact Or.inl (sep_spaced_own p s)
        · exact Or.inr hor
  have hone : ∀ w, (splitWs (ms.foldl (fun s m => applyPattern m s) w)).filter (fun t => t.any p) = runs p w := by
    intro w
    rw [pieces_of_sep p hs _ (hsep _ (fun m hm => hm) w (Or.inr hp)), hruns _ (fun m hm => hm)]
  rw [List.filter_flatMap]
  simp only [hone]
  exact runs_splitWs p hs s

theorem stable_patterns (isDigit : Char → Bool) : ∀ m ∈ patterns isDigit, Stable m := by
  intro m hm
  simp only [patterns, List.mem_cons, List.not_mem_nil, or_false] at hm
  rcases hm with rfl | rfl | rfl | rfl | rfl
  · exact stable_number isDigit
  · exact stable_run _
  · exact stable_run _
  · exact stable_run _
  · exact stable_english

/-- The three Hangul classes of the statement. -/
def HangulClass (p : Char → Bool) : Prop :=
  p = (fun c => decide (Syllable c)) ∨ p = (fun c => decide (Consonant c)) ∨ p = (fun c => decide (Vowel c))

private theorem class_disj (isDigit : Char → Bool) (hd : ∀ c, isDigit c = true → ¬ Korean c) (p : Char → Bool)
    (hp : HangulClass p) :
    matchRun p ∈ patterns isDigit ∧ (∀ c, p c = true → isSpace c = false) ∧
      ∀ m ∈ patterns isDigit, m = matchRun p ∨ ∀ s k, m s = some k → ∀ c ∈ s.take k, p c = false := by
  have e1 : isSyllable = (fun c => decide (Syllable c)) := by
    funext c; rw [Bool.eq_iff_iff, decide_eq_true_iff]; simp [isSyllable, Syllable]
  have e2 : isJaum = (fun c => decide (Consonant c)) := by
    funext c; rw [Bool.eq_iff_iff, decide_eq_true_iff]; simp [isJaum, Consonant]
  have e3 : isMoum = (fun c => decide (Vowel c)) := by
    funext c; rw [Bool.eq_iff_iff, decide_eq_true_iff]; simp [isMoum, Vowel]
  have hk : ∀ c, p c = true → Korean c := by
    intro c hc
    rcases hp with rfl | rfl | rfl <;> simp at hc <;> simp [Korean, hc]
  have hkn : ∀ c : Char, Korean c → 0x3131 ≤ c.toNat := by
    intro c hc
    rcases hc with h | h | h
    · have := h.1; omega
    · exact h.1
    · have := h.1; omega
  have hlow : ∀ c : Char, c.toNat < 0x3131 → p c = false := by
    intro c hc
    cases h : p c
    · rfl
    · have := hkn c (hk c h); omega
  have hlatin : ∀ c, isLatin c = true → p c = false := by
    intro c hc
    refine hlow c ?_
    simp only [isLatin, Bool.or_eq_true, Bool.and_eq_true, decide_eq_true_eq] at hc
    omega
  have hnum : ∀ s k, matchNumber isDigit s = some k → ∀ c ∈ s.take k, p c = false := by
    intro s k h c hc
    rcases matchNumber_chars isDigit s k h c hc with h | rfl | rfl | rfl
    · cases hpc : p c
      · rfl
      · exact absurd (hk c hpc) (hd c h)
    · exact hlow _ (by decide)
    · exact hlow _ (by decide)
    · exact hlow _ (by decide)
  have heng : ∀ s k, matchEnglish s = some k → ∀ c ∈ s.take k, p c = false := by
    intro s k h c hc
    rcases english_chars s k h c hc with h | rfl | rfl | rfl | rfl | rfl
    · exact hlatin c h
    all_goals exact hlow _ (by decide)
  have hsp : ∀ c, p c = true → isSpace c = false := by
    intro c hc
    cases hs : isSpace c
    · rfl
    · have h1 := hk c hc
      rw [isSpace_iff] at hs
      simp only [whitespace, List.mem_cons, List.not_mem_nil, or_false] at hs
      rcases h1 with h | h | h
      · obtain ⟨h1, h2⟩ := h; omega
      · obtain ⟨h1, h2⟩ := h; omega
      · obtain ⟨h1, h2⟩ := h; omega
  have hrun : ∀ q : Char → Bool, (∀ c, q c = true → p c = false) → ∀ s k, matchRun q s = some k → ∀ c ∈ s.take k, p c = false :=
    fun q hq s k h c hc => hq c (run_chars q s k h c hc)
  have dSC : ∀ c, Syllable c → ¬ Consonant c := by intro c h h'; have := h.1; have := h'.2; omega
  have dSV : ∀ c, Syllable c → ¬ Vowel c := by intro c h h'; have := h.1; have := h'.2; omega
  have dCV : ∀ c, Consonant c → ¬ Vowel c := by intro c h h'; have := h.2; have := h'.1; omega
  refine ⟨?_, hsp, ?_⟩
  · rcases hp with rfl | rfl | rfl
    · rw [← e1]; simp [patterns]
    · rw [← e2]; simp [patterns]
    · rw [← e3]; simp [patterns]
  · intro m hm
    simp only [patterns, List.mem_cons, List.not_mem_nil, or_false] at hm
    rcases hm with rfl | rfl | rfl | rfl | rfl
    · exact Or.inr hnum
    · rcases hp with rfl | rfl | rfl
      · exact Or.inl (by rw [e1])
      · refine Or.inr (hrun _ ?_); rw [e1]; intro c hc; exact decide_eq_false (fun h => dSC c (of_decide_eq_true hc) h)
      · refine Or.inr (hrun _ ?_); rw [e1]; intro c hc; exact decide_eq_false (fun h => dSV c (of_decide_eq_true hc) h)
    · rcases hp with rfl | rfl | rfl
      · refine Or.inr (hrun _ ?_); rw [e2]; intro c hc; exact decide_eq_false (fun h => dSC c h (of_decide_eq_true hc))
      · exact Or.inl (by rw [e2])
      · refine Or.inr (hrun _ ?_); rw [e2]; intro c hc; exact decide_eq_false (fun h => dCV c (of_decide_eq_true hc) h)
    · rcases hp with rfl | rfl | rfl
      · refine Or.inr (hrun _ ?_); rw [e3]; intro c hc; exact decide_eq_false (fun h => dSV c h (of_decide_eq_true hc))
      · refine Or.inr (hrun _ ?_); rw [e3]; intro c hc; exact decide_eq_false (fun h => dCV c h (of_decide_eq_true hc))
      · exact Or.inl (by rw [e3])
    · exact Or.inr heng

/-- Script separation. For each of the classes syllable, consonant jamo and vowel jamo: the tokens containing a
    character of the class are exactly the maximal runs of the class in the sentence, in order. `isDigit` is the
    regex class `\d`; the only thing assumed of it is that no Korean character is a digit. -/
theorem C17_scripts_separated (isDigit : Char → Bool) (hd : ∀ c, isDigit c = true → ¬ Korean c)
    (p : Char → Bool) (hp : HangulClass p) (s : List Char) :
    (RegexTok.tokenize isDigit s).filter (fun t => t.any p) = runs p s := by
  obtain ⟨h1, h2, h3⟩ := class_disj isDigit hd p hp
  have := class_core (patterns isDigit) (proper_patterns isDigit) p h1 h2 (stable_patterns isDigit) h3 s
  rw [tokenize_eq, ← this, show tokenizeOne isDigit = _ from funext (tokenizeOne_eq isDigit)]

private theorem mem_runsGo (p : Char → Bool) (s cur : Str) (hc : ∀ c ∈ cur, p c = true) :
    ∀ r ∈ runsGo p cur s, ∀ c ∈ r, p c = true := by
  induction s generalizing cur with
  | nil => simp only [runsGo]; split
           · simp
           · intro r hr; simp at hr; subst hr; exact hc
  | cons d s ih =>
    simp only [runsGo]
    split
    · rename_i hd
      refine ih _ ?_
      intro c h; rcases List.mem_append.1 h with h | h
      · exact hc c h
      · simp at h; subst h; exact hd
    · split
      · exact ih [] (by simp)
      · intro r hr
        rcases List.mem_cons.1 hr with rfl | hr
        · exact hc
        · exact ih [] (by simp) r hr

/-- ... in particular a token with one syllable is all syllables, and likewise for the two kinds of jamo. -/
theorem C17_tokens_pure (isDigit : Char → Bool) (hd : ∀ c, isDigit c = true → ¬ Korean c)
    (p : Char → Bool) (hp : HangulClass p) (s t : List Char) (ht : t ∈ RegexTok.tokenize isDigit s) (c : Char) (hc : c ∈ t)
    (hpc : p c = true) : ∀ d ∈ t, p d = true := by
  have h := C17_scripts_separated isDigit hd p hp s
  have : t ∈ runs p s := by
    rw [← h]; exact List.mem_filter.2 ⟨ht, List.any_eq_true.2 ⟨c, hc, hpc⟩⟩
  exact mem_runsGo p s [] (by simp) t this

def asciiDigit (c : Char) : Bool := decide (0x30 ≤ c.toNat ∧ c.toNat ≤ 0x39)

/-- the hypothesis on digits is met (by the ASCII digits), and this is the tokenizer at work -/
example : (∀ c, asciiDigit c = true → ¬ Korean c) ∧
    RegexTok.tokenize asciiDigit "이거에서+3.12같은 Bob`s ㅋㅋㅜㅠ봐".toList =
      ["이거에서".toList, "+3.12".toList, "같은".toList, "Bob`s".toList, "ㅋㅋ".toList, "ㅜㅠ".toList, "봐".toList] := by
  constructor
  · intro c h hk
    simp only [asciiDigit, decide_eq_true_eq] at h
    rcases hk with hk | hk | hk
    · have := hk.1; omega
    · have := hk.1; omega
    · have := hk.1; omega
  · decide +kernel

/-! ### Latin words -/

/-- without an `s` the English pattern is a plain run pattern -/
private theorem english_eq_run (s : Str) (h : 's' ∉ s) : matchEnglish s = matchRun isLatin s := by
  have hl : ∀ m, lastS (s.take m) = none := by
    intro m
    unfold lastS
    rw [List.getLast?_eq_none_iff, List.filter_eq_nil_iff]
    intro k _
    simp only [Bool.and_eq_true, decide_eq_true_eq, not_and]
    intro _ hk
    exact h (List.mem_of_mem_take (List.mem_of_getElem? hk))
  unfold matchEnglish matchRun
  dsimp only
  split
  · rfl
  · split
    · rename_i q rest hd
      exfalso
      apply h
      exact List.mem_of_mem_drop (i := runLength isLatin s) (by rw [hd]; simp)
    · simp only [englishBack, hl]

private theorem findAll_congr (m m' : Str → Option Nat) (s : Str) (h : ∀ t, t <:+ s → m t = m' t) (skip : Nat) :
    findAll m skip s = findAll m' skip s := by
  induction s generalizing skip with
  | nil => rfl
  | cons c cs ih =>
    have ih' := ih (fun t ht => h t (ht.trans (List.suffix_cons c cs)))
    cases skip with
    | succ n => simp only [findAll]; exact ih' n
    | zero =>
      simp only [findAll]
      rw [h _ (List.suffix_refl _)]
      split
      · rw [ih']
      · rw [ih']

private theorem latin_fold (isDigit : Char → Bool) (w : Str) (h : 's' ∉ w) :
    (patterns isDigit).foldl (fun s m => applyPattern m s) w =
      [matchNumber isDigit, matchRun isSyllable, matchRun isJaum, matchRun isMoum, matchRun isLatin].foldl (fun s m => applyPattern m s) w := by
  have hink := fold_ink [matchNumber isDigit, matchRun isSyllable, matchRun isJaum, matchRun isMoum]
    (fun m hm => proper_patterns isDigit m (by simp [patterns] at hm ⊢; rcases hm with h | h | h | h <;> simp [h])) w
  simp only [patterns, List.foldl_cons, List.foldl_nil] at hink ⊢
  generalize applyPattern _ (applyPattern _ (applyPattern _ (applyPattern _ w))) = v at hink
  have hv : 's' ∉ v := by
    intro hv
    have : 's' ∈ ink v := List.mem_filter.2 ⟨hv, by decide⟩
    rw [hink] at this
    exact h (List.mem_filter.1 this).1
  unfold applyPattern
  rw [findAll_congr matchEnglish (matchRun isLatin) v (fun t ht => english_eq_run t (fun hs => hv (ht.subset hs)))]

/-- The counterpart of C17 for Latin letters, for texts without the letter `s`: the tokens with a Latin letter
    are exactly the maximal runs of Latin letters. -/
theorem C51_without_s (isDigit : Char → Bool) (hd : ∀ c, isDigit c = true → isLatin c = false)
    (s : List Char) (hs : 's' ∉ s) :
    (RegexTok.tokenize isDigit s).filter (fun t => t.any isLatin) = runs isLatin s := by
  have hlat : ∀ c : Char, isLatin c = true → c.toNat ≤ 0xFF ∧ 0x41 ≤ c.toNat ∧ c.toNat ≠ 0x85 ∧ c.toNat ≠ 0xA0 := by
    intro c hc
    simp only [isLatin, Bool.or_eq_true, Bool.and_eq_true, decide_eq_true_eq] at hc
    omega
  have hnot : ∀ c : Char, (0xFF < c.toNat ∨ c.toNat < 0x41) → isLatin c = false := by
    intro c hc
    cases h : isLatin c
    · rfl
    · have := hlat c h; omega
  have hpr : ∀ m ∈ [matchNumber isDigit, matchRun isSyllable, matchRun isJaum, matchRun isMoum, matchRun isLatin], Proper m ∧ Stable m := by
    intro m hm
    simp only [List.mem_cons, List.not_mem_nil, or_false] at hm
    rcases hm with rfl | rfl | rfl | rfl | rfl
    · exact ⟨proper_number isDigit, stable_number isDigit⟩
    all_goals exact ⟨proper_run _, stable_run _⟩
  have := class_core [matchNumber isDigit, matchRun isSyllable, matchRun isJaum, matchRun isMoum, matchRun isLatin]
    (fun m hm => (hpr m hm).1) isLatin (by simp) ?_ (fun m hm => (hpr m hm).2) ?_ s
  · rw [tokenize_eq, ← this]
    congr 1
    rw [show tokenizeOne isDigit = _ from funext (tokenizeOne_eq isDigit)]
    rw [List.flatMap_def, List.flatMap_def]
    congr 1
    refine List.map_congr_left ?_
    intro w hw
    rw [latin_fold isDigit w]
    intro hsw
    have : 's' ∈ (splitWs s).flatten := List.mem_flatten.2 ⟨w, hw, hsw⟩
    rw [splitWs_flatten] at this
    exact hs (List.mem_filter.1 this).1
  · intro c hc
    have h1 := hlat c hc
    cases h : isSpace c
    · rfl
    · rw [isSpace_iff] at h
      simp only [whitespace, List.mem_cons, List.not_mem_nil, or_false] at h
      omega
  · intro m hm
    simp only [List.mem_cons, List.not_mem_nil, or_false] at hm
    have hrun : ∀ q : Char → Bool, (∀ c, q c = true → 0xFF < c.toNat) → ∀ s k, matchRun q s = some k → ∀ c ∈ s.take k, isLatin c = false :=
      fun q hq s k h c hc => hnot c (Or.inl (hq c (run_chars q s k h c hc)))
    rcases hm with rfl | rfl | rfl | rfl | rfl
    · right
      intro t k h c hc
      rcases matchNumber_chars isDigit t k h c hc with h | rfl | rfl | rfl
      · exact hd c h
      all_goals exact hnot _ (by decide)
    · exact Or.inr (hrun _ (fun c hc => by simp only [isSyllable, Bool.and_eq_true, decide_eq_true_eq] at hc; omega))
    · exact Or.inr (hrun _ (fun c hc => by simp only [isJaum, Bool.and_eq_true, decide_eq_true_eq] at hc; omega))
    · exact Or.inr (hrun _ (fun c hc => by simp only [isMoum, Bool.and_eq_true, decide_eq_true_eq] at hc; omega))
    · exact Or.inl rfl

example : 's' ∉ "한글abc가 Éte3".toList ∧
    RegexTok.tokenize asciiDigit "한글abc가 Éte3".toList = ["한글".toList, "abc".toList, "가".toList, "Éte".toList, "3".toList] := by
  decide +kernel

/-- The counterpart of C17 for Latin letters fails: an English word is cut after its last inner `s`. -/
theorem C51_english_words_whole_violated :
    RegexTok.tokenize asciiDigit "passing".toList = ["pass".toList, "ing".toList] ∧
      runs isLatin "passing".toList = ["passing".toList] := by decide +kernel

end Props

import Verif.Proofs.Repeat
import Verif.Model.Normalizer
import Verif.Props.C03_C04
/-! C09: normalizer.normalize and the only_* filters. C10: repeat_normalize. -/
namespace Props
open Py Spec Hangle

/-- the characters `normalizer.normalize` may keep: Hangul and quotes always, the other groups on request -/
def Asked (alphabet number punctuation symbol : Bool) (c : Char) : Prop :=
  Korean c ∨ c ∈ ['"', '\''] ∨ (alphabet = true ∧ (('a' ≤ c ∧ c ≤ 'z') ∨ ('A' ≤ c ∧ c ≤ 'Z'))) ∨
  (number = true ∧ '0' ≤ c ∧ c ≤ '9') ∨ (punctuation = true ∧ c ∈ [',', '.', '?', '!']) ∨
  (symbol = true ∧ c ∈ ['(', ')', '[', ']', '{', '}'])

instance (a n p s : Bool) (c : Char) : Decidable (Asked a n p s c) := inferInstanceAs (Decidable (_ ∨ _))

private theorem eq_iff_toNat (c d : Char) : c = d ↔ c.toNat = d.toNat := Char.toNat_inj.symm

private theorem step (f : Bool) (p : Char → Bool) (s : Str) :
    (if !f then Normalizer.blankOut p s else s) = Normalizer.blankOut (fun c => !f && p c) s := by
  cases f
  · simp
  · simp [Normalizer.blankOut]

private theorem asked_char (a n p s : Bool) (c : Char) :
    (let c := if !Normalizer.textClass c then ' ' else c
     let c := if !a && Normalizer.alphabetClass c then ' ' else c
     let c := if !n && Normalizer.numberClass c then ' ' else c
     let c := if !p && Normalizer.punctuationClass c then ' ' else c
     if !s && Normalizer.symbolClass c then ' ' else c) = if decide (Asked a n p s c) then c else ' ' := by
  have hb : Normalizer.alphabetClass ' ' = false ∧ Normalizer.numberClass ' ' = false ∧
      Normalizer.punctuationClass ' ' = false ∧ Normalizer.symbolClass ' ' = false := by decide
  have ht : Normalizer.textClass c = true ↔ Asked true true true true c := by
    simp only [Normalizer.textClass, Normalizer.hangleClass, Normalizer.alphabetClass, Normalizer.numberClass,
      Asked, Korean, Syllable, Consonant, Vowel, Bool.or_eq_true, Bool.and_eq_true, decide_eq_true_eq, beq_iff_eq,
      char_le_iff, eq_iff_toNat, List.mem_cons, List.not_mem_nil, or_false, true_and,
      show ','.toNat = 44 from rfl, show '.'.toNat = 46 from rfl, show '?'.toNat = 63 from rfl, show '!'.toNat = 33 from rfl,
      show '"'.toNat = 34 from rfl, show '\''.toNat = 39 from rfl, show '('.toNat = 40 from rfl, show ')'.toNat = 41 from rfl,
      show '['.toNat = 91 from rfl, show ']'.toNat = 93 from rfl, show '{'.toNat = 123 from rfl, show '}'.toNat = 125 from rfl,
      show 'a'.toNat = 97 from rfl, show 'z'.toNat = 122 from rfl, show 'A'.toNat = 65 from rfl,
      show 'Z'.toNat = 90 from rfl, show '0'.toNat = 48 from rfl, show '9'.toNat = 57 from rfl]
    omega
  have hmono : Asked a n p s c → Asked true true true true c := by
    unfold Asked; rintro (h | h | h | h | h | h)
    · exact Or.inl h
    · exact Or.inr (Or.inl h)
    · exact Or.inr (Or.inr (Or.inl ⟨rfl, h.2⟩))
    · exact Or.inr (Or.inr (Or.inr (Or.inl ⟨rfl, h.2⟩)))
    · exact Or.inr (Or.inr (Or.inr (Or.inr (Or.inl ⟨rfl, h.2⟩))))
    · exact Or.inr (Or.inr (Or.inr (Or.inr (Or.inr ⟨rfl, h.2⟩))))
  cases hc : Normalizer.textClass c with
  | false =>
    have : ¬ Asked a n p s c := by
      intro h; rw [ht.2 (hmono h)] at hc; cases hc
    simp [hb, this]
  | true =>
    have h4 := ht.1 hc
    have key : (!a && Normalizer.alphabetClass c || !n && Normalizer.numberClass c || !p && Normalizer.punctuationClass c ||
        !s && Normalizer.symbolClass c) = !decide (Asked a n p s c) := by
      rw [Bool.eq_iff_iff]
      revert h4
      simp only [Asked, Korean, Syllable, Consonant, Vowel, Normalizer.alphabetClass, Normalizer.numberClass,
        Normalizer.punctuationClass, Normalizer.symbolClass, Bool.or_eq_true, Bool.and_eq_true, decide_eq_true_eq,
        beq_iff_eq, char_le_iff, eq_iff_toNat, List.mem_cons, List.not_mem_nil, or_false, true_and, Bool.not_eq_true',
        decide_eq_false_iff_not,
        show ','.toNat = 44 from rfl, show '.'.toNat = 46 from rfl, show '?'.toNat = 63 from rfl, show '!'.toNat = 33 from rfl,
        show '"'.toNat = 34 from rfl, show '\''.toNat = 39 from rfl, show '('.toNat = 40 from rfl, show ')'.toNat = 41 from rfl,
        show '['.toNat = 91 from rfl, show ']'.toNat = 93 from rfl, show '{'.toNat = 123 from rfl, show '}'.toNat = 125 from rfl,
        show '`'.toNat = 96 from rfl,
        show 'a'.toNat = 97 from rfl, show 'z'.toNat = 122 from rfl, show 'A'.toNat = 65 from rfl,
        show 'Z'.toNat = 90 from rfl, show '0'.toNat = 48 from rfl, show '9'.toNat = 57 from rfl]
      cases a <;> cases n <;> cases p <;> cases s <;> simp only [Bool.false_eq_true, Bool.true_eq_false, false_and, true_and, or_false, false_or, false_iff, Classical.not_not] <;> omega
    by_cases hA : Asked a n p s c
    · simp only [hA, decide_true, Bool.not_true, Bool.or_eq_false_iff] at key
      simp [key, hA]
    · simp only [hA, decide_false, Bool.not_false] at key
      simp only [Bool.not_true, Bool.false_eq_true, if_false, hA, decide_false]
      by_cases k1 : (!a && Normalizer.alphabetClass c) = true
      · simp [k1, hb]
      · by_cases k2 : (!n && Normalizer.numberClass c) = true
        · simp [k1, k2, hb]
        · by_cases k3 : (!p && Normalizer.punctuationClass c) = true
          · simp [k1, k2, k3, hb]
          · simp [k1, k2, k3] at key
            simp [k1, k2, k3, key]

theorem not_space_of_asked {a n p s : Bool} {c : Char} (h : Asked a n p s c) : isSpace c = false := by
  cases hs : isSpace c
  · rfl
  · exfalso
    rw [isSpace_iff] at hs
    revert h
    simp only [Asked, Korean, Syllable, Consonant, Vowel, char_le_iff, eq_iff_toNat, List.mem_cons, List.not_mem_nil, or_false,
      show ','.toNat = 44 from rfl, show '.'.toNat = 46 from rfl, show '?'.toNat = 63 from rfl, show '!'.toNat = 33 from rfl,
      show '"'.toNat = 34 from rfl, show '\''.toNat = 39 from rfl, show '('.toNat = 40 from rfl, show ')'.toNat = 41 from rfl,
      show '['.toNat = 91 from rfl, show ']'.toNat = 93 from rfl, show '{'.toNat = 123 from rfl, show '}'.toNat = 125 from rfl,
      show 'a'.toNat = 97 from rfl, show 'z'.toNat = 122 from rfl, show 'A'.toNat = 65 from rfl,
      show 'Z'.toNat = 90 from rfl, show '0'.toNat = 48 from rfl, show '9'.toNat = 57 from rfl]
    simp only [whitespace, List.mem_cons, List.not_mem_nil, or_false] at hs
    omega

theorem asked_nospace (a n p s : Bool) :
    (fun c => decide (Asked a n p s c) && !isSpace c) = (fun c => decide (Asked a n p s c)) := by
  funext c
  by_cases h : Asked a n p s c
  · simp [h, not_space_of_asked h]
  · simp [h]

theorem asked_filter (a n p s : Bool) (doc : Str) :
    (let doc := Normalizer.blankOut (fun c => !Normalizer.textClass c) doc
     let doc := if !a then Normalizer.blankOut Normalizer.alphabetClass doc else doc
     let doc := if !n then Normalizer.blankOut Normalizer.numberClass doc else doc
     let doc := if !p then Normalizer.blankOut Normalizer.punctuationClass doc else doc
     if !s then Normalizer.blankOut Normalizer.symbolClass doc else doc) =
      keepOrBlank (fun c => decide (Asked a n p s c)) doc := by
  simp only [step]
  simp only [Normalizer.blankOut, List.map_map, keepOrBlank]
  apply List.map_congr_left
  intro c _
  exact asked_char a n p s c

/-- C09 (a): `normalize` without repeat removal gives exactly the maximal runs of asked-for characters, in order,
    joined by single blanks. -/
theorem C09_normalize_runs (isWord : Char → Bool) (doc : Str) (a n p s : Bool) :
    Normalizer.normalize isWord doc a n p s 0 = blankJoin (runs (fun c => decide (Asked a n p s c)) doc) := by
  have h := asked_filter a n p s doc
  simp only at h
  simp only [Normalizer.normalize, Nat.lt_irrefl, gt_iff_lt, if_false, h, strip_collapse_keepOrBlank, asked_nospace]

/-- C09 (b): with repeat removal, each of those runs has its repeats of three or more shortened first. -/
theorem C09_normalize_repeat (isWord : Char → Bool) (doc : Str) (a n p s : Bool) (k : Nat) (hk : 0 < k) :
    Normalizer.normalize isWord doc a n p s k =
      blankJoin ((runs (fun c => decide (Asked a n p s c)) doc).map (repeatSub isWord 3 k)) := by
  have h := asked_filter a n p s doc
  simp only at h
  have hs : (fun c => true && !isSpace c) = (fun c => !isSpace c) := by funext c; simp
  have hsp : ∀ t : Str, splitWs t = runs (fun c => !isSpace c) t := by
    intro t
    have := splitWs_keepOrBlank (fun _ => true) t
    simpa [keepOrBlank, hs] using this
  simp only [Normalizer.normalize, gt_iff_lt, hk, if_true, h]
  rw [strip_collapse, hsp, runs_repeatSub isWord 3 k hk, ← hsp, splitWs_keepOrBlank, asked_nospace, join_eq_blankJoin]

private theorem mapped_words (isWord : Char → Bool) (k : Nat) (hk : 0 < k) (q : Char → Bool) (doc : Str) :
    ∀ w ∈ (runs q doc).map (repeatSub isWord 3 k), w ≠ [] ∧ ∀ c ∈ w, q c = true := by
  intro w hw
  obtain ⟨v, hv, rfl⟩ := List.mem_map.1 hw
  have := mem_runs q doc v hv
  exact ⟨repeatSub_ne_nil isWord 3 k hk v this.1, fun c hc => this.2 c (mem_repeatSub isWord 3 k v hc)⟩

/-- C09 (c): whatever the flags, the result is tidy, has only blanks and asked-for characters, and is a fixed
    point. -/
theorem C09_normalize_alphabet (isWord : Char → Bool) (doc : Str) (a n p s : Bool) (k : Nat) :
    Tidy (Normalizer.normalize isWord doc a n p s k) ∧
    (∀ c ∈ Normalizer.normalize isWord doc a n p s k, c = ' ' ∨ Asked a n p s c) ∧
    Normalizer.normalize isWord (Normalizer.normalize isWord doc a n p s k) a n p s k =
      Normalizer.normalize isWord doc a n p s k := by
  have hb : (fun c => decide (Asked a n p s c)) ' ' = false := by
    simp only [decide_eq_false_iff_not]
    intro h; have := not_space_of_asked h; simp at this
  by_cases hk : 0 < k
  · rw [C09_normalize_repeat isWord doc a n p s k hk]
    have hw := mapped_words isWord k hk (fun c => decide (Asked a n p s c)) doc
    refine ⟨?_, ?_, ?_⟩
    · rw [← join_eq_blankJoin]
      apply tidy_join
      intro w hm
      refine ⟨(hw w hm).1, fun c hc => not_space_of_asked (by simpa using (hw w hm).2 c hc)⟩
    · intro c hc
      rw [← join_eq_blankJoin] at hc
      rcases mem_join hc with h | ⟨w, hm, h⟩
      · exact Or.inl h
      · exact Or.inr (by simpa using (hw w hm).2 c h)
    · rw [C09_normalize_repeat isWord _ a n p s k hk, runs_blankJoin _ hb _ hw, List.map_map]
      congr 1
      apply List.map_congr_left
      intro w _; exact repeatSub_idem isWord 3 k hk w
  · have : k = 0 := by omega
    subst this
    rw [C09_normalize_runs]
    refine ⟨tidy_blankJoin_runs _ (fun c hc => not_space_of_asked (by simpa using hc)) _, ?_, ?_⟩
    · intro c hc
      rcases mem_blankJoin_runs _ _ hc with h | h
      · exact Or.inl h
      · exact Or.inr (by simpa using h)
    · rw [C09_normalize_runs, blankJoin_runs_idem _ hb]

private theorem only_runs (q : Char → Bool) (hq : ∀ c, q c = true → isSpace c = false) (s : Str) :
    strip (collapse (Normalizer.blankOut (fun c => !q c) s)) = blankJoin (runs q s) := by
  have : Normalizer.blankOut (fun c => !q c) s = keepOrBlank q s := by
    simp only [Normalizer.blankOut, keepOrBlank]
    apply List.map_congr_left; intro c _; by_cases h : q c = true <;> simp [h]
  rw [this, strip_collapse_keepOrBlank]
  congr 1; congr 1; funext c
  cases h : q c
  · simp
  · simp [hq c h]

/-- an ASCII digit -/
def Digit (c : Char) : Prop := '0' ≤ c ∧ c ≤ '9'
instance (c : Char) : Decidable (Digit c) := inferInstanceAs (Decidable (_ ∧ _))

theorem hangleClass_iff (c : Char) : Normalizer.hangleClass c = decide (Korean c) := by
  rw [Bool.eq_iff_iff, decide_eq_true_iff]
  simp only [Normalizer.hangleClass, Korean, Syllable, Consonant, Vowel, Bool.or_eq_true, Bool.and_eq_true, decide_eq_true_eq]
  omega

/-- C09 (d): the `only_*` functions keep exactly the maximal runs of their alphabets. -/
theorem C09_only (s : Str) :
    Normalizer.onlyHangle s = blankJoin (runs (fun c => decide (Korean c)) s) ∧
    Normalizer.onlyHangleNumber s = blankJoin (runs (fun c => decide (Korean c ∨ Digit c)) s) ∧
    Normalizer.onlyText s = blankJoin (runs (fun c => decide (Asked true true true true c)) s) := by
  refine ⟨?_, ?_, ?_⟩
  · have : Normalizer.hangleClass = (fun c => decide (Korean c)) := funext hangleClass_iff
    unfold Normalizer.onlyHangle
    rw [only_runs _ ?_, this]
    intro c hc
    rw [hangleClass_iff, decide_eq_true_eq] at hc
    exact not_space_of_asked (a := false) (n := false) (p := false) (s := false) (Or.inl hc)
  · have : (fun c => Normalizer.hangleClass c || Normalizer.numberClass c) = (fun c => decide (Korean c ∨ Digit c)) := by
      funext c
      rw [hangleClass_iff, Bool.eq_iff_iff]
      simp [Normalizer.numberClass, Digit, char_le_iff]
    unfold Normalizer.onlyHangleNumber
    rw [only_runs (fun c => Normalizer.hangleClass c || Normalizer.numberClass c) ?_, this]
    intro c hc
    have hc := congrFun this c ▸ hc
    simp only [decide_eq_true_eq] at hc
    exact not_space_of_asked (a := false) (n := true) (p := false) (s := false)
      (hc.imp id (fun h => Or.inr (Or.inr (Or.inl ⟨rfl, h⟩))))
  · have h := C09_normalize_runs (fun _ => false) s true true true true
    have e : Normalizer.normalize (fun _ => false) s true true true true 0 = Normalizer.onlyText s := by
      simp [Normalizer.normalize, Normalizer.onlyText]
    rw [← e, h]

example : Normalizer.normalize (fun _ => false) "(주)가나다라-abc 12, \"따옴\"".toList true false false false 0
    = "주 가나다라 abc \"따옴\"".toList := by decide +kernel

/-! ### C04 with repeat removal -/

/-- C04 (e): with repeat removal on (runs of four or more become `k`), the visible runs are shortened, and
    normalising twice is still normalising once. -/
theorem C04_normalize_repeat (isWord : Char → Bool) (doc : Str) (e n p : Bool) (r : Char → Bool) (k : Nat) (hk : 0 < k) :
    Hangle.normalize isWord doc e n p k r = blankJoin ((runs (Visible e n p r) doc).map (repeatSub isWord 4 k)) ∧
    Hangle.normalize isWord (Hangle.normalize isWord doc e n p k r) e n p k r = Hangle.normalize isWord doc e n p k r := by
  have h0 : ∀ d, Hangle.normalize isWord d e n p k r = blankJoin ((runs (Visible e n p r) d).map (repeatSub isWord 4 k)) := by
    intro d
    have : Hangle.normalize isWord d e n p k r = Hangle.normalize isWord (repeatSub isWord 4 k d) e n p 0 r := by
      simp [Hangle.normalize, hk]
    rw [this, C04_normalize_runs, runs_repeatSub isWord 4 k hk]
  refine ⟨h0 doc, ?_⟩
  rw [h0 doc, h0, runs_blankJoin _ (by simp [Visible, whitespace]), List.map_map]
  · congr 1
    apply List.map_congr_left
    intro w _; exact repeatSub_idem isWord 4 k hk w
  · intro w hw
    obtain ⟨v, hv, rfl⟩ := List.mem_map.1 hw
    have := mem_runs _ doc v hv
    exact ⟨repeatSub_ne_nil isWord 4 k hk v this.1, fun c hc => this.2 c (mem_repeatSub isWord 4 k v hc)⟩

/-! ### C10 -/

/-- a maximal run of three or more equal word characters becomes exactly `n` of them, any other run stays -/
def toN (isWord : Char → Bool) (n : Nat) (e : Char × Nat) : Char × Nat :=
  if isWord e.1 = true ∧ 3 ≤ e.2 then (e.1, n) else e

/-- the pieces between whitespace -/
abbrev pieces (s : Str) : List Str := runs (fun c => decide (c.toNat ∉ whitespace)) s

theorem nospace_eq : (fun c => !isSpace c) = (fun c : Char => decide (c.toNat ∉ whitespace)) := by
  funext c
  have := isSpace_iff c
  cases h : isSpace c <;> simp_all

theorem splitWs_pieces (s : Str) : splitWs s = pieces s := by
  have := splitWs_keepOrBlank (fun _ => true) s
  have hs : (fun c => true && !isSpace c) = (fun c => !isSpace c) := by funext c; simp
  have hk : keepOrBlank (fun _ => true) s = s := by simp [keepOrBlank]
  rw [hs, nospace_eq, hk] at this
  exact this

private theorem toN_eq (isWord : Char → Bool) (n : Nat) : shorten isWord 3 n = toN isWord n := by
  funext e; simp [shorten, toN]

private theorem repeatSub_pos (isWord : Char → Bool) (s : Str) (n : Nat) (hn : 0 < n) :
    Normalizer.repeatNormalize isWord s n = blankJoin ((pieces s).map (repeatSub isWord 3 n)) := by
  simp only [Normalizer.repeatNormalize, gt_iff_lt, hn, if_true]
  rw [strip_collapse, splitWs_pieces]
  unfold pieces
  rw [runs_repeatSub isWord 3 n hn, join_eq_blankJoin]

/-- C10 (a): write the text as its maximal runs of equal characters; the result is the text in which every run of
    three or more word characters has length exactly `n` and all other runs are untouched, with whitespace
    collapsed and stripped. -/
theorem C10_repeat_runs (isWord : Char → Bool) (rl : List (Char × Nat)) (h : MaximalRuns rl) (n : Nat) (hn : 0 < n) :
    Normalizer.repeatNormalize isWord (expand rl) n = blankJoin (pieces (expand (rl.map (toN isWord n)))) := by
  simp only [Normalizer.repeatNormalize, gt_iff_lt, hn, if_true]
  rw [strip_collapse, splitWs_pieces, repeatSub_expand isWord 3 n rl h, toN_eq, join_eq_blankJoin]

/-- every text has such a run list -/
theorem C10_runs_exist (s : Str) : ∃ rl, MaximalRuns rl ∧ expand rl = s := exists_runs s

/-- C10 (b): a non-positive limit only collapses whitespace. -/
theorem C10_zero (isWord : Char → Bool) (s : Str) :
    Normalizer.repeatNormalize isWord s 0 = blankJoin (pieces s) := by
  simp only [Normalizer.repeatNormalize, gt_iff_lt, Nat.lt_irrefl, if_false]
  rw [strip_collapse, splitWs_pieces, join_eq_blankJoin]

/-- C10 (c): no word character is repeated more than `max(n, 2)` times in a row in the result (word characters are
    not whitespace). -/
theorem C10_no_long_run (isWord : Char → Bool) (hw : ∀ c, isWord c = true → c.toNat ∉ whitespace) (s : Str) (n : Nat)
    (hn : 0 < n) (c : Char) (hc : isWord c = true) (m : Nat)
    (hm : List.replicate m c <:+: Normalizer.repeatNormalize isWord s n) : m ≤ max n 2 := by
  cases m with
  | zero => omega
  | succ m =>
    rw [repeatSub_pos isWord s n hn] at hm
    -- the repeated word character lies inside one piece
    have hpiece : ∃ w ∈ (pieces s).map (repeatSub isWord 3 n), List.replicate (m + 1) c <:+: w := by
      have hcb : c ≠ ' ' := by
        rintro rfl; exact hw _ hc (by decide)
      generalize (pieces s).map (repeatSub isWord 3 n) = ws at hm
      rw [← join_eq_blankJoin] at hm
      induction ws with
      | nil => simp [join] at hm
      | cons w ws ih =>
        cases ws with
        | nil => exact ⟨w, by simp, by simpa [join] using hm⟩
        | cons v ws =>
          rw [join_cons (by simp)] at hm
          obtain ⟨x, y, hxy⟩ := hm
          rw [List.append_assoc, List.append_eq_append_iff] at hxy
          rcases hxy with ⟨as, h1, h2⟩ | ⟨bs, h1, h2⟩
          · rw [List.append_eq_append_iff] at h2
            rcases h2 with ⟨cs, h3, h4⟩ | ⟨cs, h3, h4⟩
            · exact ⟨w, by simp, ⟨x, cs, by rw [h1, h3]; simp⟩⟩
            · cases cs with
              | nil => exact ⟨w, by simp, ⟨x, [], by rw [h1]; simpa using h3⟩⟩
              | cons z cs =>
                exfalso
                have hz : z = c := by
                  have : z ∈ List.replicate (m + 1) c := by rw [h3]; simp
                  exact List.eq_of_mem_replicate this
                simp at h4
                exact hcb (hz.symm.trans h4.1.symm)
          · cases bs with
            | nil =>
              exfalso
              simp [List.replicate_succ] at h2
              exact hcb h2.1.symm
            | cons b bs =>
              simp at h2
              have hi : List.replicate (m + 1) c <:+: join [' '] (v :: ws) := ⟨bs, y, by rw [h2.2]; simp⟩
              obtain ⟨u, hu, hr⟩ := ih hi
              exact ⟨u, by simp [hu], hr⟩
    obtain ⟨w, hwm, hi⟩ := hpiece
    obtain ⟨v, _, rfl⟩ := List.mem_map.1 hwm
    obtain ⟨rl, h1, rfl⟩ := exists_runs v
    rw [repeatSub_expand isWord 3 n rl h1] at hi
    obtain ⟨k, hk, hl⟩ := replicate_infix_expand _ (maximalRuns_shorten isWord 3 n hn rl h1) c m hi
    obtain ⟨⟨d, j⟩, _, he⟩ := List.mem_map.1 hk
    rw [toN_eq] at he
    simp only [toN] at he
    split at he
    · cases he; omega
    · rename_i hnot
      cases he
      have : ¬ 3 ≤ k := fun h => hnot ⟨hc, h⟩
      omega

/-- C10 (d): applying it twice is applying it once, for every limit. -/
theorem C10_idempotent (isWord : Char → Bool) (s : Str) (n : Nat) :
    Normalizer.repeatNormalize isWord (Normalizer.repeatNormalize isWord s n) n = Normalizer.repeatNormalize isWord s n := by
  have hb : (fun c : Char => decide (c.toNat ∉ whitespace)) ' ' = false := by decide
  by_cases hn : 0 < n
  · rw [repeatSub_pos isWord s n hn, repeatSub_pos isWord _ n hn]
    have hw := mapped_words isWord n hn (fun c : Char => decide (c.toNat ∉ whitespace)) s
    unfold pieces
    rw [runs_blankJoin _ hb _ hw, List.map_map]
    congr 1
    apply List.map_congr_left
    intro w _; exact repeatSub_idem isWord 3 n hn w
  · have : n = 0 := by omega
    subst this
    rw [C10_zero, C10_zero, blankJoin_runs_idem _ hb]

example : MaximalRuns [('ㅋ', 5), (' ', 2), ('하', 2), ('!', 4)] ∧
    Normalizer.repeatNormalize (fun c => c ≠ ' ' && c ≠ '!') (expand [('ㅋ', 5), (' ', 2), ('하', 2), ('!', 4)]) 3
      = "ㅋㅋㅋ 하하!!!!".toList := by
  constructor
  · simp [MaximalRuns]
  · decide +kernel

end Props

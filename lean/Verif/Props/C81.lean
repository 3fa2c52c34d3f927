import Verif.Proofs.Regex3
import Verif.Model.HangleEncoder
/-!
C81: the regular expressions of soynlp. Each pattern below is the literal of the source, read by the parser of Spec/Regex and run by the
backtracking semantics of Spec/Regex; the model's hand-written classes, runs and substitutions do exactly what they do, for every text.
`isWord` and `isDigit` are the engine's `\w` and `\d`.
-/
namespace Props
open Py Regex RegexTok

/-- soynlp/tokenizer/_tokenizer.py:15-19 -/
def tokenizerPatterns : List String :=
  ["[-+]?\\d*[\\.]?[\\d]+|[-+]?\\d+", "[가-힣]+", "[ㄱ-ㅎ]+", "[ㅏ-ㅣ]+", "[a-zA-ZÀ-ÿ]+[[`']?s]*|[a-zA-ZÀ-ÿ]+"]

section
variable (isWord isDigit : Char → Bool)

private theorem inSet_range (lo hi : Char) (c : Char) :
    inSet isWord isDigit false [.range lo hi] c = (decide (lo.toNat ≤ c.toNat) && decide (c.toNat ≤ hi.toNat)) := by
  simp [inSet, Item.has]

/-- C81: what `findall` returns for each of the five patterns of `RegexTokenizer` -/
theorem C81_tokenizer (hdot : isDigit '.' = false) (hminus : isDigit '-' = false) (hplus : isDigit '+' = false) (s : Str) :
    tokenizerPatterns.map (fun p => reFindall isWord isDigit p s) = (RegexTok.patterns isDigit).map (fun m => some (RegexTok.findAll m 0 s)) := by
  have h0 := findall_eq isWord isDigit _ _ (measures_number isWord isDigit hdot hminus hplus) s
  have h1 := findall_eq isWord isDigit _ _ (measures_run isWord isDigit false [.range '가' '힣'] isSyllable (inSet_range isWord isDigit _ _)) s
  have h2 := findall_eq isWord isDigit _ _ (measures_run isWord isDigit false [.range 'ㄱ' 'ㅎ'] isJaum (inSet_range isWord isDigit _ _)) s
  have h3 := findall_eq isWord isDigit _ _ (measures_run isWord isDigit false [.range 'ㅏ' 'ㅣ'] isMoum (inSet_range isWord isDigit _ _)) s
  have h4 := findall_eq isWord isDigit _ _ (measures_english isWord isDigit) s
  have p0 : parse "[-+]?\\d*[\\.]?[\\d]+|[-+]?\\d+" = some (.alt (.seq signRe (.seq (.star (.set false [.digit])) (.seq (.alt (.set false [.lit '.']) .eps) (.seq (.set false [.digit]) (.star (.set false [.digit])))))) (.seq signRe (.seq (.set false [.digit]) (.star (.set false [.digit]))))) := by
    decide +kernel
  have p1 : parse "[가-힣]+" = some (.seq (.set false [.range '가' '힣']) (.star (.set false [.range '가' '힣']))) := by decide +kernel
  have p2 : parse "[ㄱ-ㅎ]+" = some (.seq (.set false [.range 'ㄱ' 'ㅎ']) (.star (.set false [.range 'ㄱ' 'ㅎ']))) := by decide +kernel
  have p3 : parse "[ㅏ-ㅣ]+" = some (.seq (.set false [.range 'ㅏ' 'ㅣ']) (.star (.set false [.range 'ㅏ' 'ㅣ']))) := by decide +kernel
  have p4 : parse "[a-zA-ZÀ-ÿ]+[[`']?s]*|[a-zA-ZÀ-ÿ]+" = some englishRe := by decide +kernel
  unfold tokenizerPatterns RegexTok.patterns reFindall
  simp only [List.map_cons, List.map_nil, p0, p1, p2, p3, p4, Option.map_some, h0, h1, h2, h3, h4]

/-! ### the normalizers -/

private theorem reSub_space (s : Str) : reSub isWord isDigit "\\s+" " " s = some (collapse s) := by
  have p : parse "\\s+" = some (.seq (.set false [.space]) (.star (.set false [.space]))) := by decide +kernel
  unfold reSub
  rw [p]
  exact congrArg some (subConst_space isWord isDigit s)

private theorem reSub_class {p : String} (neg : Bool) (items : List Item) (hp : parse p = some (.set neg items)) (q : Char → Bool)
    (hq : ∀ c, inSet isWord isDigit neg items c = q c) (s : Str) : reSub isWord isDigit p " " s = some (Normalizer.blankOut q s) := by
  unfold reSub
  rw [hp]
  exact congrArg some (subConst_set isWord isDigit neg items q hq s)

private theorem reSubGroup_repeat {p : String} (j : Nat) (hp : parse p = some (repeatRe 0 j)) (n : Nat) (s : Str) :
    reSubGroup isWord isDigit p n s = some (Hangle.repeatSub isWord (j + 1) n s) := by
  unfold reSubGroup
  rw [hp]
  exact congrArg some (subGroup_repeat isWord isDigit j n s)

private theorem reSubGroup_width {p : String} (k : Nat) (hp : parse p = some (repeatRe k 3)) (n : Nat) (s : Str) :
    reSubGroup isWord isDigit p n s = some (TokNorm.subWidth isWord (k + 1) n s) := by
  unfold reSubGroup
  rw [hp]
  exact congrArg some (subGroup_width isWord isDigit k n s)

private theorem eqc (c d : Char) : (c == d) = (decide (d.toNat ≤ c.toNat) && decide (c.toNat ≤ d.toNat)) := by
  rw [Bool.eq_iff_iff]
  simp only [beq_iff_eq, Bool.and_eq_true, decide_eq_true_iff]
  constructor
  · rintro rfl; exact ⟨Nat.le_refl _, Nat.le_refl _⟩
  · rintro ⟨h1, h2⟩; exact char_ext (Nat.le_antisymm h2 h1)

private abbrev hangleItems : List Item := [.range 'ㄱ' 'ㅎ', .range 'ㅏ' 'ㅣ', .range '가' '힣']
private abbrev textItems : List Item :=
  [.range 'ㄱ' 'ㅎ', .range 'ㅏ' 'ㅣ', .range '가' '힣', .range 'a' 'z', .range 'A' 'Z', .range '0' '9', .lit ',', .lit '.', .lit '?', .lit '!', .lit '"',
    .range '\'' '(', .lit ')', .lit '[', .lit ']', .lit '{', .lit '}']

private theorem sub_text (s : Str) : reSub isWord isDigit "[^ㄱ-ㅎㅏ-ㅣ가-힣a-zA-Z0-9,\\.\\?\\!\"'-()\\[\\]\\{\\}]" " " s =
    some (Normalizer.blankOut (fun c => !Normalizer.textClass c) s) := by
  refine reSub_class isWord isDigit true textItems (by decide +kernel) _ (fun c => ?_) s
  unfold inSet Normalizer.textClass Normalizer.hangleClass Normalizer.alphabetClass Normalizer.numberClass
  simp only [eqc, List.any_cons, List.any_nil, Item.has, Bool.or_assoc, Bool.or_false, Bool.bne_true]
  rfl

private theorem sub_alphabet (s : Str) : reSub isWord isDigit "[a-zA-Z]" " " s = some (Normalizer.blankOut Normalizer.alphabetClass s) := by
  refine reSub_class isWord isDigit false [.range 'a' 'z', .range 'A' 'Z'] (by decide +kernel) _ (fun c => ?_) s
  unfold inSet Normalizer.alphabetClass
  simp only [List.any_cons, List.any_nil, Item.has, Bool.or_false, Bool.bne_false]
  rfl

private theorem sub_number (s : Str) : reSub isWord isDigit "[0-9]" " " s = some (Normalizer.blankOut Normalizer.numberClass s) := by
  refine reSub_class isWord isDigit false [.range '0' '9'] (by decide +kernel) _ (fun c => ?_) s
  unfold inSet Normalizer.numberClass
  simp only [List.any_cons, List.any_nil, Item.has, Bool.or_false, Bool.bne_false]
  rfl

private theorem sub_punctuation (s : Str) : reSub isWord isDigit "[,\\.\\?\\!]" " " s = some (Normalizer.blankOut Normalizer.punctuationClass s) := by
  refine reSub_class isWord isDigit false [.lit ',', .lit '.', .lit '?', .lit '!'] (by decide +kernel) _ (fun c => ?_) s
  unfold inSet Normalizer.punctuationClass
  simp only [eqc, List.any_cons, List.any_nil, Item.has, Bool.or_assoc, Bool.or_false, Bool.bne_false]

private theorem sub_symbol (s : Str) : reSub isWord isDigit "[()\\[\\]\\{\\}`]" " " s = some (Normalizer.blankOut Normalizer.symbolClass s) := by
  refine reSub_class isWord isDigit false [.lit '(', .lit ')', .lit '[', .lit ']', .lit '{', .lit '}', .lit '`'] (by decide +kernel) _ (fun c => ?_) s
  unfold inSet Normalizer.symbolClass
  simp only [eqc, List.any_cons, List.any_nil, Item.has, Bool.or_assoc, Bool.or_false, Bool.bne_false]

private theorem inSet_hangle (c : Char) : inSet isWord isDigit false hangleItems c = Normalizer.hangleClass c := by
  unfold inSet Normalizer.hangleClass
  simp only [List.any_cons, List.any_nil, Item.has, Bool.or_assoc, Bool.or_false, Bool.bne_false]
  rfl

/-- C81: `soynlp.normalizer.normalize` -/
theorem C81_normalize (doc : Str) (alphabet number punctuation symbol : Bool) (n : Nat) :
    (do let doc ← reSub isWord isDigit "[^ㄱ-ㅎㅏ-ㅣ가-힣a-zA-Z0-9,\\.\\?\\!\"'-()\\[\\]\\{\\}]" " " doc
        let doc ← if !alphabet then reSub isWord isDigit "[a-zA-Z]" " " doc else some doc
        let doc ← if !number then reSub isWord isDigit "[0-9]" " " doc else some doc
        let doc ← if !punctuation then reSub isWord isDigit "[,\\.\\?\\!]" " " doc else some doc
        let doc ← if !symbol then reSub isWord isDigit "[()\\[\\]\\{\\}`]" " " doc else some doc
        let doc ← if n > 0 then reSubGroup isWord isDigit "(\\w)\\1{2,}" n doc else some doc
        let doc ← reSub isWord isDigit "\\s+" " " doc
        some (strip doc)) = some (Normalizer.normalize isWord doc alphabet number punctuation symbol n) := by
  have p3 : parse "(\\w)\\1{2,}" = some (repeatRe 0 2) := by decide +kernel
  simp only [sub_text, sub_alphabet, sub_number, sub_punctuation, sub_symbol, reSub_space, reSubGroup_repeat isWord isDigit 2 p3, Option.bind_eq_bind, Option.bind_some]
  unfold Normalizer.normalize
  by_cases hn : n > 0 <;> cases alphabet <;> cases number <;> cases punctuation <;> cases symbol <;> simp [hn]

/-- C81: `repeat_normalize`, also the last step of `emoticon_normalize` -/
theorem C81_repeat_normalize (sent : Str) (n : Nat) :
    (do let s ← if n > 0 then reSubGroup isWord isDigit "(\\w)\\1{2,}" n sent else some sent
        let s ← reSub isWord isDigit "\\s+" " " s
        some (strip s)) = some (Normalizer.repeatNormalize isWord sent n) := by
  have p3 : parse "(\\w)\\1{2,}" = some (repeatRe 0 2) := by decide +kernel
  simp only [reSub_space, reSubGroup_repeat isWord isDigit 2 p3, Option.bind_eq_bind, Option.bind_some]
  unfold Normalizer.repeatNormalize
  by_cases hn : n > 0 <;> simp [hn]

/-- C81: `remove_doublespace`, `only_hangle`, `only_hangle_number`, `only_text` -/
theorem C81_only (sent : Str) :
    reSub isWord isDigit "\\s+" " " sent = some (Normalizer.removeDoublespace sent) ∧
    (do let s ← reSub isWord isDigit "[^ㄱ-ㅎㅏ-ㅣ가-힣]" " " sent
        let s ← reSub isWord isDigit "\\s+" " " s
        some (strip s)) = some (Normalizer.onlyHangle sent) ∧
    (do let s ← reSub isWord isDigit "[^ㄱ-ㅎㅏ-ㅣ가-힣0-9]" " " sent
        let s ← reSub isWord isDigit "\\s+" " " s
        some (strip s)) = some (Normalizer.onlyHangleNumber sent) ∧
    (do let s ← reSub isWord isDigit "[^ㄱ-ㅎㅏ-ㅣ가-힣a-zA-Z0-9,\\.\\?\\!\"'-()\\[\\]\\{\\}]" " " sent
        let s ← reSub isWord isDigit "\\s+" " " s
        some (strip s)) = some (Normalizer.onlyText sent) := by
  have h1 : reSub isWord isDigit "[^ㄱ-ㅎㅏ-ㅣ가-힣]" " " sent = some (Normalizer.blankOut (fun c => !Normalizer.hangleClass c) sent) := by
    refine reSub_class isWord isDigit true hangleItems (by decide +kernel) _ (fun c => ?_) sent
    unfold inSet Normalizer.hangleClass
    simp only [List.any_cons, List.any_nil, Item.has, Bool.or_assoc, Bool.or_false, Bool.bne_true]
    rfl
  have h2 : reSub isWord isDigit "[^ㄱ-ㅎㅏ-ㅣ가-힣0-9]" " " sent =
      some (Normalizer.blankOut (fun c => !(Normalizer.hangleClass c || Normalizer.numberClass c)) sent) := by
    refine reSub_class isWord isDigit true (hangleItems ++ [.range '0' '9']) (by decide +kernel) _ (fun c => ?_) sent
    unfold inSet Normalizer.hangleClass Normalizer.numberClass
    simp only [hangleItems, List.cons_append, List.nil_append, List.any_cons, List.any_nil, Item.has, Bool.or_assoc, Bool.or_false, Bool.bne_true]
    rfl
  simp only [h1, h2, sub_text, reSub_space, Option.bind_eq_bind, Option.bind_some]
  exact ⟨rfl, rfl, rfl, rfl⟩

/-- C81: `remain_hangle_on_last`, the step of `normalize_sent_for_lrgraph` that looks at match positions -/
theorem C81_remain_hangle_on_last (eojeol : Str) :
    (reEnds isWord isDigit "[ㄱ-ㅎㅏ-ㅣ가-힣]" eojeol).map (fun es => match es.getLast? with | none => [] | some e => strip (eojeol.take e)) =
      some (Normalizer.remainHangleOnLast eojeol) := by
  have hp : parse "[ㄱ-ㅎㅏ-ㅣ가-힣]" = some (.set false hangleItems) := by decide +kernel
  have hin : inSet isWord isDigit false hangleItems = Normalizer.hangleClass := funext (inSet_hangle isWord isDigit)
  have key : ends isWord isDigit (.set false hangleItems) eojeol =
      ((List.range eojeol.length).filter (fun i => (eojeol[i]?).any Normalizer.hangleClass)).map (· + 1) := by
    unfold ends
    rw [show pieces isWord isDigit (.set false hangleItems) eojeol.length eojeol = _ from all_set isWord isDigit false hangleItems eojeol, hin]
    have gen : ∀ (s : Str) (a : Nat) (acc : List Nat),
        ((s.map (fun c => if Normalizer.hangleClass c then Piece.hit none [c] else .char c)).foldl (fun a p => match p with
          | .hit _ t => (a.1 + t.length, a.2 ++ [a.1 + t.length])
          | .char _ => (a.1 + 1, a.2)) (a, acc)).2 =
        acc ++ ((List.range s.length).filter (fun i => (s[i]?).any Normalizer.hangleClass)).map (fun i => a + (i + 1)) := by
      intro s
      induction s with
      | nil => intro a acc; simp
      | cons c cs ih =>
        intro a acc
        rw [List.map_cons, List.foldl_cons, List.length_cons, List.range_succ_eq_map]
        have hmap : ((List.map Nat.succ (List.range cs.length)).filter (fun i => ((c :: cs)[i]?).any Normalizer.hangleClass)).map (fun i => a + (i + 1)) =
            ((List.range cs.length).filter (fun i => (cs[i]?).any Normalizer.hangleClass)).map (fun i => (a + 1) + (i + 1)) := by
          rw [List.filter_map, List.map_map]
          have : ((fun i => ((c :: cs)[i]?).any Normalizer.hangleClass) ∘ Nat.succ) = (fun i => (cs[i]?).any Normalizer.hangleClass) := by
            funext i; simp
          rw [this]
          apply List.map_congr_left
          intro i _
          simp only [Function.comp, Nat.succ_eq_add_one]; omega
        by_cases h : Normalizer.hangleClass c = true
        · rw [if_pos h]
          simp only
          have h0 : ((c :: cs)[0]?).any Normalizer.hangleClass = true := by simpa using h
          rw [ih, List.filter_cons_of_pos (p := fun i => ((c :: cs)[i]?).any Normalizer.hangleClass) h0, List.map_cons, hmap]
          simp
        · rw [if_neg h]
          simp only
          have h0 : ¬ ((c :: cs)[0]?).any Normalizer.hangleClass = true := by simpa using h
          rw [ih, List.filter_cons_of_neg (p := fun i => ((c :: cs)[i]?).any Normalizer.hangleClass) h0, hmap]
    refine (gen eojeol 0 []).trans ?_
    simp
  unfold reEnds
  rw [hp]
  simp only [Option.map_some, key, List.getLast?_map]
  unfold Normalizer.remainHangleOnLast
  simp only
  cases ((List.range eojeol.length).filter (fun i => (eojeol[i]?).any Normalizer.hangleClass)).getLast? <;> rfl

/-- C81: the two substitutions before it in `normalize_sent_for_lrgraph` -/
theorem C81_lrgraph (sent : Str) :
    (do let s ← reSub isWord isDigit "[^ㄱ-ㅎㅏ-ㅣ가-힣a-zA-Z0-9,\\.\\?\\!\"'-()\\[\\]\\{\\}]" " " sent
        let s ← reSub isWord isDigit "[()\\[\\]\\{\\}`]" " " s
        some (join [' '] (((splitWs s).map Normalizer.remainHangleOnLast).filter (fun e => e ≠ [])))) = some (Normalizer.normalizeSentForLrgraph sent) := by
  simp only [sub_text, sub_symbol, Option.bind_eq_bind, Option.bind_some]
  unfold Normalizer.normalizeSentForLrgraph
  simp only
  split
  · rename_i h; rw [h]; rfl
  · rfl

/-- C81: `soynlp.hangle.normalize` before its character loop, and the normalization of `ConvolutionHangleEncoder` -/
theorem C81_hangle (doc : Str) (n : Nat) (english number punctuation : Bool) (remains : Char → Bool) :
    (do let d ← if n > 0 then reSubGroup isWord isDigit "(\\w)\\1{3,}" n doc else some doc
        let d ← reSub isWord isDigit "\\s+" " " (d.map (Hangle.normalizeChar english number punctuation remains))
        some (strip d)) = some (Hangle.normalize isWord doc english number punctuation n remains) ∧
    (do let d ← reSub isWord isDigit "[^ㄱ-ㅎㅏ-ㅣ가-힣 0-9]" " " doc
        let d ← reSub isWord isDigit "\\s+" " " d
        some (strip d)) = some (Hangle.Encoder.normalize doc) := by
  have p3 : parse "(\\w)\\1{3,}" = some (repeatRe 0 3) := by decide +kernel
  have he : reSub isWord isDigit "[^ㄱ-ㅎㅏ-ㅣ가-힣 0-9]" " " doc = some (Normalizer.blankOut (fun c => !Hangle.Encoder.kept c) doc) := by
    refine reSub_class isWord isDigit true (hangleItems ++ [.lit ' ', .range '0' '9']) (by decide +kernel) _ (fun c => ?_) doc
    unfold inSet Hangle.Encoder.kept
    simp only [hangleItems, eqc, List.cons_append, List.nil_append, List.any_cons, List.any_nil, Item.has, Bool.or_assoc, Bool.or_false, Bool.bne_true]
    rfl
  constructor
  · simp only [reSub_space, reSubGroup_repeat isWord isDigit 3 p3, Option.bind_eq_bind, Option.bind_some]
    unfold Hangle.normalize
    by_cases hn : n > 0 <;> simp [hn]
  · simp only [he, reSub_space, Option.bind_eq_bind, Option.bind_some]
    unfold Hangle.Encoder.normalize Normalizer.blankOut
    congr 4
    funext c
    cases h : Hangle.Encoder.kept c <;> simp [h]

/-- C81: the repeat removal of `soynlp.tokenizer`'s `normalize` -/
theorem C81_token_normalize (token : Str) (n : Int) :
    (if n > 0 then do
        let t ← reSubGroup isWord isDigit "(\\w\\w\\w\\w)\\1{3,}" n.toNat token
        let t ← reSubGroup isWord isDigit "(\\w\\w\\w)\\1{3,}" n.toNat t
        let t ← reSubGroup isWord isDigit "(\\w\\w)\\1{3,}" n.toNat t
        reSubGroup isWord isDigit "(\\w)\\1{3,}" n.toNat t
      else some token) = some (TokNorm.removeRepeat isWord token n) := by
  have q4 : parse "(\\w\\w\\w\\w)\\1{3,}" = some (repeatRe 3 3) := by decide +kernel
  have q3 : parse "(\\w\\w\\w)\\1{3,}" = some (repeatRe 2 3) := by decide +kernel
  have q2 : parse "(\\w\\w)\\1{3,}" = some (repeatRe 1 3) := by decide +kernel
  have q1 : parse "(\\w)\\1{3,}" = some (repeatRe 0 3) := by decide +kernel
  simp only [reSubGroup_width isWord isDigit 3 q4, reSubGroup_width isWord isDigit 2 q3, reSubGroup_width isWord isDigit 1 q2,
    reSubGroup_width isWord isDigit 0 q1, Option.bind_eq_bind, Option.bind_some]
  unfold TokNorm.removeRepeat
  by_cases hn : n > 0
  · rw [if_pos hn, if_pos hn]; rfl
  · rw [if_neg hn, if_neg hn]
end

example : reFindall (fun c => c.isAlphanum) (fun c => c.isDigit) "[a-zA-ZÀ-ÿ]+[[`']?s]*|[a-zA-ZÀ-ÿ]+" "it's Lisa, dogs]]".toList =
    some ["it's".toList, "Lis".toList, "a".toList, "dogs]]".toList] := by decide +kernel
example : reFindall (fun c => c.isAlphanum) (fun c => c.isDigit) "[-+]?\\d*[\\.]?[\\d]+|[-+]?\\d+" "a-1.5.2+7".toList =
    some ["-1.5".toList, ".2".toList, "+7".toList] := by decide +kernel
example : reSubGroup (fun c => c.isAlphanum) (fun c => c.isDigit) "(\\w\\w)\\1{3,}" 2 "xababababac".toList = some "xababac".toList := by decide +kernel

end Props

import Verif.Proofs.Regex
/-! The pattern for Latin words, and the substitutions of the normalizers. -/
namespace Regex
open Py RegexTok

section
variable (isWord isDigit : Char → Bool)

abbrev latinSet : Re := .set false [.range 'a' 'z', .range 'A' 'Z', .range 'À' 'ÿ']
abbrev quoteSet : Re := .set false [.lit '[', .lit '`', .lit '\'']
abbrev englishRe : Re := .alt (.seq (.seq latinSet (.star latinSet)) (.seq (.alt quoteSet .eps) (.seq (.set false [.lit 's']) (.star (.set false [.lit ']'])))))
  (.seq latinSet (.star latinSet))

theorem inSet_latin (c : Char) : inSet isWord isDigit false [.range 'a' 'z', .range 'A' 'Z', .range 'À' 'ÿ'] c = isLatin c := by
  unfold inSet isLatin
  simp only [List.any_cons, List.any_nil, Item.has, Bool.or_false, Bool.bne_false]
  rw [Bool.or_assoc]
  rfl

def isQuote (c : Char) : Bool := decide (c = '[') || decide (c = '`') || decide (c = '\'')

theorem inSet_quote (c : Char) : inSet isWord isDigit false [.lit '[', .lit '`', .lit '\''] c = isQuote c := by
  unfold inSet isQuote
  rw [List.any_cons, List.any_cons, List.any_cons, has_lit, has_lit, has_lit]
  simp [Bool.or_assoc]

theorem inSet_one (c d : Char) : inSet isWord isDigit false [.lit d] c = decide (c = d) := by
  unfold inSet; rw [List.any_cons, has_lit]; simp

def close (t : Str) : Str := t.drop (runLength (fun c => decide (c = ']')) t)

/-- `s]*` -/
def sTail : Str → Option Str
  | [] => none
  | c :: t => if c = 's' then some (close t) else none

theorem head?_sTail (u : Option Str) (t : Str) :
    (run isWord isDigit (.seq (.set false [.lit 's']) (.star (.set false [.lit ']']))) (u, t)).head? = (sTail t).map (fun r => (u, r)) := by
  rw [run, head?_flatMap', run_set]
  cases t with
  | nil => rfl
  | cons c t =>
    simp only [inSet_one]
    by_cases hc : c = 's'
    · simp only [hc, decide_true, if_true, findSome?_one]
      rw [run_star_set]
      have : inSet isWord isDigit false [.lit ']'] = fun c => decide (c = ']') := funext (fun c => inSet_one isWord isDigit c ']')
      rw [this]
      simp [List.range_succ, sTail, close]
    · simp [hc, sTail]

/-- ``[[`']?s]*`` -/
def quoteTail : Str → Option Str
  | [] => none
  | c :: t => if isQuote c then sTail t else sTail (c :: t)

theorem head?_quoteTail (u : Option Str) (t : Str) :
    (run isWord isDigit (.seq (.alt quoteSet .eps) (.seq (.set false [.lit 's']) (.star (.set false [.lit ']'])))) (u, t)).head? =
      (quoteTail t).map (fun r => (u, r)) := by
  have heps : ∀ t : Str, run isWord isDigit .eps (u, t) = [(u, t)] := fun t => rfl
  rw [run, run, List.flatMap_append, List.head?_append, head?_flatMap', head?_flatMap', run_set, heps, findSome?_one, head?_sTail]
  cases t with
  | nil => rfl
  | cons c t =>
    simp only [inSet_quote]
    by_cases hq : isQuote c = true
    · have hs : sTail (c :: t) = none := by
        have : c ≠ 's' := by rintro rfl; revert hq; decide
        simp [sTail, this]
      simp only [hq, if_true, findSome?_one, head?_sTail, hs]
      simp [quoteTail, hq]
    · simp [hq, quoteTail]

theorem isQuote_latin {c : Char} (h : isLatin c = true) : isQuote c = false := by
  unfold isQuote
  have h1 : c ≠ '[' := by rintro rfl; revert h; decide
  have h2 : c ≠ '`' := by rintro rfl; revert h; decide
  have h3 : c ≠ '\'' := by rintro rfl; revert h; decide
  simp [h1, h2, h3]

theorem s_latin : isLatin 's' = true := by decide

theorem lastS_eq (w : Str) : lastS w = (List.range w.length).reverse.find? (fun k => k ≠ 0 && w[k]? = some 's') := by
  unfold lastS
  rw [List.getLast?_eq_head?_reverse, ← List.filter_reverse, List.head?_filter]

theorem findSome?_find? {α β : Type} (l : List α) (p : α → Bool) (g : α → β) : l.findSome? (fun a => if p a then some (g a) else none) = (l.find? p).map g := by
  induction l with
  | nil => rfl
  | cons a l ih =>
    rw [List.findSome?_cons, List.find?_cons]
    cases h : p a with
    | true => simp
    | false => simpa using ih

theorem findSome?_congr' {α β : Type} {l : List α} {f g : α → Option β} (h : ∀ a ∈ l, f a = g a) : l.findSome? f = l.findSome? g := by
  induction l with
  | nil => rfl
  | cons a l ih =>
    rw [List.findSome?_cons, List.findSome?_cons, h a (by simp), ih (fun b hb => h b (by simp [hb]))]

theorem drop_get {s : Str} {i : Nat} {c : Char} (h : s[i]? = some c) : s.drop i = c :: s.drop (i + 1) := by
  obtain ⟨hlt, hg⟩ := List.getElem?_eq_some_iff.1 h
  rw [List.drop_eq_getElem_cons hlt, hg]

/-- the first alternative of the pattern after the longest run of letters has been given back in part -/
theorem findSome?_back (s : Str) (k : Nat) (hk : runLength isLatin s = k + 1) :
    (List.range k).reverse.findSome? (fun i => quoteTail (s.drop (i + 1))) =
      (lastS (s.take (k + 1))).map (fun j => if j + 1 = k + 1 then close (s.drop (k + 1)) else s.drop (j + 1)) := by
  have hstep : ∀ i, i < k → quoteTail (s.drop (i + 1)) = if s[i + 1]? = some 's' then some (close (s.drop (i + 2))) else none := by
    intro i hi
    obtain ⟨c, hc, hl⟩ := takeWhile_get (p := isLatin) (s := s) (i := i + 1) (by omega)
    rw [drop_get hc, hc]
    have hq := isQuote_latin hl
    by_cases h : c = 's' <;> simp [quoteTail, sTail, hq, h]
    simp [h] at hq
    simp [hq]
  have hclose : ∀ j, j ≤ k → close (s.drop (j + 1)) = if j + 1 = k + 1 then close (s.drop (k + 1)) else s.drop (j + 1) := by
    intro j hj
    by_cases h : j + 1 = k + 1
    · rw [if_pos h, h]
    · rw [if_neg h]
      obtain ⟨c, hc, hl⟩ := takeWhile_get (p := isLatin) (s := s) (i := j + 1) (by omega)
      unfold close
      rw [drop_get hc]
      have : c ≠ ']' := by rintro rfl; revert hl; decide
      simp [runLength, this]
  have hlen : (s.take (k + 1)).length = k + 1 := by
    have := runLength_le isLatin s
    rw [List.length_take]; omega
  rw [lastS_eq, hlen]
  have hshift : (List.range (k + 1)).reverse.find? (fun j => j ≠ 0 && (s.take (k + 1))[j]? = some 's') =
      ((List.range k).reverse.find? (fun i => decide (s[i + 1]? = some 's'))).map (· + 1) := by
    rw [List.range_succ_eq_map, List.reverse_cons, List.find?_append, ← List.map_reverse, List.find?_map]
    have : (List.find? (fun j => j ≠ 0 && decide ((s.take (k + 1))[j]? = some 's')) [0]) = none := by simp
    rw [this]
    rw [Option.or_none]
    congr 1
    have e : ∀ (l : List Nat), (∀ i ∈ l, i < k) → l.find? ((fun j => j ≠ 0 && decide ((s.take (k + 1))[j]? = some 's')) ∘ Nat.succ) = l.find? (fun i => decide (s[i + 1]? = some 's')) := by
      intro l hl
      induction l with
      | nil => rfl
      | cons a l ih =>
        rw [List.find?_cons, List.find?_cons, ih (fun i hi => hl i (by simp [hi]))]
        have ha := hl a (by simp)
        have : (s.take (k + 1))[a.succ]? = s[a + 1]? := by
          rw [List.getElem?_take_of_lt (by omega)]
        simp [this]
    exact e _ (by intro i hi; simpa using hi)
  rw [hshift, Option.map_map]
  rw [findSome?_congr' (g := fun i => if decide (s[i + 1]? = some 's') then some (if (i + 1) + 1 = k + 1 then close (s.drop (k + 1)) else s.drop ((i + 1) + 1)) else none)]
  · rw [findSome?_find?]; rfl
  · intro i hi
    have hi : i < k := by simpa using hi
    rw [hstep i hi, hclose (i + 1) (by omega)]
    simp

theorem englishBack_none {s : Str} {m : Nat} (h : lastS (s.take m) = none) : englishBack s m = m := by unfold englishBack; rw [h]
theorem englishBack_some {s : Str} {m j : Nat} (h : lastS (s.take m) = some j) :
    englishBack s m = if j + 1 = m then m + runLength (fun c => c = ']') (s.drop m) else j + 1 := by unfold englishBack; rw [h]

theorem lastS_lt {w : Str} {j : Nat} (h : lastS w = some j) : j < w.length := by
  unfold lastS at h
  have := List.mem_of_getLast? h
  rw [List.mem_filter] at this
  simpa using this.1

theorem measures_english : Measures isWord isDigit englishRe matchEnglish := by
  have hin : inSet isWord isDigit false [.range 'a' 'z', .range 'A' 'Z', .range 'À' 'ÿ'] = isLatin := funext (inSet_latin isWord isDigit)
  intro s
  have hle := runLength_le isLatin s
  have hcl : ∀ t : Str, close t = t.drop (runLength (fun c => c = ']') t) := fun t => rfl
  refine ⟨?_, ?_⟩
  · rw [run, List.head?_append, head?_plus_set, run, head?_flatMap', run_plus_set, hin, List.findSome?_map]
    have hf : ((fun a => (run isWord isDigit (.seq (.alt quoteSet .eps) (.seq (.set false [.lit 's']) (.star (.set false [.lit ']'])))) a).head?) ∘
        fun i => ((none : Option Str), s.drop (i + 1))) = fun i => (quoteTail (s.drop (i + 1))).map (fun r => ((none : Option Str), r)) := by
      funext i; exact head?_quoteTail isWord isDigit none (s.drop (i + 1))
    rw [hf]
    have hmap : ∀ l : List Nat, l.findSome? (fun i => (quoteTail (s.drop (i + 1))).map (fun r => ((none : Option Str), r))) =
        (l.findSome? (fun i => quoteTail (s.drop (i + 1)))).map (fun r => ((none : Option Str), r)) := by
      intro l
      induction l with
      | nil => rfl
      | cons a l ih => rw [List.findSome?_cons, List.findSome?_cons, ih]; cases quoteTail (s.drop (a + 1)) <;> rfl
    rw [hmap]
    unfold matchEnglish
    cases hk : runLength isLatin s with
    | zero => simp
    | succ k =>
      rw [findSome?_reverse_range, findSome?_back s k hk]
      simp only [Nat.add_eq_zero_iff, Nat.one_ne_zero, and_false, if_false]
      -- the value of `englishBack`
      have hback : ((((lastS (s.take (k + 1))).map (fun j => if j + 1 = k + 1 then close (s.drop (k + 1)) else s.drop (j + 1))).map
          (fun r => ((none : Option Str), r))).or (some (none, s.drop (k + 1)))).map (·.2) = some (s.drop (englishBack s (k + 1))) := by
        cases hl : lastS (s.take (k + 1)) with
        | none => rw [englishBack_none hl]; rfl
        | some j =>
          rw [englishBack_some hl]
          simp only [Option.map_some, Option.some_or]
          congr 1
          split
          · rw [hcl, List.drop_drop]
          · rfl
      have hnotS : ∀ c t, s.drop (k + 1) = c :: t → c ≠ 's' := by
        intro c t h
        have := head_drop_run isLatin s c t (by rw [hk]; exact h)
        rintro rfl
        rw [s_latin] at this; cases this
      have hq0 : (∀ q t, s.drop (k + 1) = q :: 's' :: t → isQuote q = false) → quoteTail (s.drop (k + 1)) = none := by
        intro h
        cases hd : s.drop (k + 1) with
        | nil => rfl
        | cons q t =>
          have hs := hnotS q t hd
          by_cases hq : isQuote q = true
          · cases t with
            | nil => simp [quoteTail, hq, sTail]
            | cons c t =>
              by_cases hc : c = 's'
              · subst hc; rw [h q t hd] at hq; cases hq
              · simp [quoteTail, hq, sTail, hc]
          · simp [quoteTail, hq, sTail, hs]
      split
      · rename_i q rest hd
        by_cases hq : isQuote q = true
        · have hq' : (decide (q = '[') || decide (q = '`') || decide (q = '\'')) = true := hq
          have hqt : quoteTail (s.drop (k + 1)) = some (close rest) := by
            rw [hd]; simp [quoteTail, hq, sTail]
          rw [hqt]
          simp only [Option.some_or, Option.map_some, hq', if_true]
          rw [hcl]
          congr 1
          have : s.drop (k + 1 + 2) = rest := by rw [← List.drop_drop, hd]; rfl
          rw [← List.drop_drop, this]
        · have hq' : (decide (q = '[') || decide (q = '`') || decide (q = '\'')) = false := by
            have : isQuote q = false := by simpa using hq
            exact this
          rw [hq0 (by intro q' t' h; rw [hd] at h; cases h; simpa using hq), Option.none_or, hback]
          simp only [hq', Bool.false_eq_true, if_false, Option.map_some]
      · rename_i hne
        rw [hq0 (by intro q' t' h; exact absurd h (hne q' t')), Option.none_or, hback]
        rfl
  · intro k h
    unfold matchEnglish at h
    simp only at h
    have hbackle : ∀ m, 1 ≤ m → m ≤ s.length → 1 ≤ englishBack s m ∧ englishBack s m ≤ s.length := by
      intro m h1 h2
      cases hl : lastS (s.take m) with
      | none => rw [englishBack_none hl]; omega
      | some j =>
        rw [englishBack_some hl]
        have hj := lastS_lt hl
        rw [List.length_take] at hj
        have := runLength_le (fun c => decide (c = ']')) (s.drop m)
        rw [List.length_drop] at this
        split <;> omega
    split at h
    · cases h
    · split at h
      · rename_i q rest hd
        have h3 : s.length - runLength isLatin s = rest.length + 2 := by
          have := congrArg List.length hd; simpa using this
        split at h
        · have := runLength_le (fun c => decide (c = ']')) rest
          cases h; omega
        · cases h; exact hbackle _ (by omega) hle
      · cases h; exact hbackle _ (by omega) hle

end
end Regex

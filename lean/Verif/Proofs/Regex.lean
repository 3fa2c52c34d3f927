import Verif.Spec.Regex
import Verif.Model.RegexTokenizer
import Verif.Model.Normalizer
import Verif.Model.TokNormalizer
/-!
Lemmas about the backtracking semantics of `Spec/Regex`, and the model's matchers for RegexTokenizer.
-/
namespace Regex
open Py RegexTok

section
variable (isWord isDigit : Char → Bool)

/-- the characters of a class -/
def inSet (neg : Bool) (items : List Item) (c : Char) : Bool := (items.any (Item.has isWord isDigit c)) != neg

theorem run_set (neg : Bool) (items : List Item) (u : Option Str) (s : Str) :
    run isWord isDigit (.set neg items) (u, s) = match s with
      | [] => []
      | c :: cs => if inSet isWord isDigit neg items c then [(u, cs)] else [] := by
  cases s <;> rfl

/-- `[class]*`: as many as possible, then one less, … -/
theorem starM_set (neg : Bool) (items : List Item) (u : Option Str) (s : Str) (n : Nat) (hn : s.length ≤ n) :
    starM (run isWord isDigit (.set neg items)) n (u, s) =
      (List.range (runLength (inSet isWord isDigit neg items) s + 1)).reverse.map (fun i => (u, s.drop i)) := by
  induction s generalizing n with
  | nil => cases n <;> simp [starM, run_set, runLength]
  | cons c cs ih =>
    cases n with
    | zero => simp at hn
    | succ n =>
      rw [starM, run_set]
      by_cases h : inSet isWord isDigit neg items c = true
      · have hr : runLength (inSet isWord isDigit neg items) (c :: cs) = runLength (inSet isWord isDigit neg items) cs + 1 := by
          simp [runLength, h]
        rw [hr, List.range_succ_eq_map]
        simp only [h, if_true]
        rw [List.filter_cons_of_pos (by simp), List.filter_nil, List.flatMap_cons, List.flatMap_nil, List.append_nil, ih n (by simpa using hn)]
        simp [List.map_map, Function.comp_def, List.map_reverse]
      · have hr : runLength (inSet isWord isDigit neg items) (c :: cs) = 0 := by
          simp [runLength, h]
        rw [hr]
        simp [h]

theorem run_star_set (neg : Bool) (items : List Item) (u : Option Str) (s : Str) :
    run isWord isDigit (.star (.set neg items)) (u, s) =
      (List.range (runLength (inSet isWord isDigit neg items) s + 1)).reverse.map (fun i => (u, s.drop i)) := by
  rw [run]; exact starM_set isWord isDigit neg items u s _ (Nat.le_refl _)

/-- `[class]+` -/
theorem run_plus_set (neg : Bool) (items : List Item) (u : Option Str) (s : Str) :
    run isWord isDigit (.seq (.set neg items) (.star (.set neg items))) (u, s) =
      (List.range (runLength (inSet isWord isDigit neg items) s)).reverse.map (fun i => (u, s.drop (i + 1))) := by
  rw [run, run_set]
  cases s with
  | nil => simp [runLength]
  | cons c cs =>
    by_cases h : inSet isWord isDigit neg items c = true
    · have hr : runLength (inSet isWord isDigit neg items) (c :: cs) = runLength (inSet isWord isDigit neg items) cs + 1 := by
        simp [runLength, h]
      rw [hr]
      simp only [h, if_true]
      rw [List.flatMap_cons, List.flatMap_nil, List.append_nil, run_star_set]
      simp
    · have hr : runLength (inSet isWord isDigit neg items) (c :: cs) = 0 := by
        simp [runLength, h]
      rw [hr]
      simp [h]

theorem head?_plus_set (neg : Bool) (items : List Item) (u : Option Str) (s : Str) :
    (run isWord isDigit (.seq (.set neg items) (.star (.set neg items))) (u, s)).head? =
      if runLength (inSet isWord isDigit neg items) s = 0 then none else some (u, s.drop (runLength (inSet isWord isDigit neg items) s)) := by
  rw [run_plus_set]
  cases h : runLength (inSet isWord isDigit neg items) s with
  | zero => simp
  | succ k => simp [List.range_succ]

theorem runLength_le (p : Char → Bool) (s : Str) : runLength p s ≤ s.length := by
  unfold runLength; exact List.Sublist.length_le (List.takeWhile_sublist p)

/-- the model's `findall` is the engine's, when the matcher gives the length of the engine's match -/
theorem findAll_skip (m : Str → Option Nat) (k : Nat) (s : Str) (h : k ≤ s.length) : findAll m k s = findAll m 0 (s.drop k) := by
  induction k generalizing s with
  | zero => rfl
  | succ k ih =>
    cases s with
    | nil => simp at h
    | cons c cs => rw [findAll, ih cs (by simpa using h)]; rfl

/-- `m` gives the length of the first match of `r` -/
def Measures (r : Re) (m : Str → Option Nat) : Prop :=
  ∀ s, ((run isWord isDigit r (none, s)).head?).map (·.2) = (m s).map (fun k => s.drop k) ∧ ∀ k, m s = some k → 1 ≤ k ∧ k ≤ s.length

theorem findall_eq (r : Re) (m : Str → Option Nat) (hm : Measures isWord isDigit r m) (s : Str) :
    findall isWord isDigit r s = findAll m 0 s := by
  have key : ∀ n s, s.length ≤ n →
      (pieces isWord isDigit r n s).filterMap (fun p => match p with | .hit _ t => some t | .char _ => none) = findAll m 0 s := by
    intro n
    induction n with
    | zero => intro s hs; cases s with
      | nil => rfl
      | cons c cs => simp at hs
    | succ n ih =>
      intro s hs
      cases s with
      | nil => rfl
      | cons c cs =>
        have hs' : cs.length ≤ n := by simpa using hs
        obtain ⟨h1, h2⟩ := hm (c :: cs)
        rw [pieces, findAll]
        unfold first
        cases hf : (run isWord isDigit r (none, c :: cs)).head? with
        | none =>
          rw [hf] at h1
          have : m (c :: cs) = none := by cases hmc : m (c :: cs) with
            | none => rfl
            | some k => rw [hmc] at h1; cases h1
          rw [this]
          simp only [List.filterMap_cons]
          exact ih cs hs'
        | some y =>
          rw [hf] at h1
          cases hmc : m (c :: cs) with
          | none => rw [hmc] at h1; cases h1
          | some k =>
            rw [hmc] at h1
            have hy : y.2 = (c :: cs).drop k := by simpa using h1
            obtain ⟨k1, k2⟩ := h2 k hmc
            rw [List.length_cons] at k2
            have hlen : y.2.length = cs.length + 1 - k := by rw [hy]; simp
            have hle : y.2.length ≤ cs.length := by omega
            simp only [hle, if_true, List.filterMap_cons]
            rw [hlen]
            have e1 : cs.length + 1 - (cs.length + 1 - k) = k := by omega
            rw [e1, findAll_skip m (k - 1) cs (by omega), ih y.2 (by omega), hy]
            cases k with
            | zero => omega
            | succ k => rfl
  exact key _ s (Nat.le_refl _)

theorem measures_run (neg : Bool) (items : List Item) (p : Char → Bool) (hp : ∀ c, inSet isWord isDigit neg items c = p c) :
    Measures isWord isDigit (.seq (.set neg items) (.star (.set neg items))) (matchRun p) := by
  have e : inSet isWord isDigit neg items = p := funext hp
  intro s
  rw [head?_plus_set, e]
  unfold matchRun
  refine ⟨?_, ?_⟩
  · split <;> simp
  · intro k hk
    split at hk
    · cases hk
    · have := runLength_le p s
      cases hk; omega

/-- a greedy choice among positions: the first that works -/
theorem findSome?_reverse_range {β : Type} (f : Nat → Option β) (n : Nat) :
    (List.range (n + 1)).reverse.findSome? f = (f n).or ((List.range n).reverse.findSome? f) := by
  rw [List.range_succ, List.reverse_append, List.reverse_singleton, List.singleton_append, List.findSome?_cons]
  cases f n <;> rfl

theorem head?_flatMap' {α β : Type} (l : List α) (f : α → List β) : (l.flatMap f).head? = l.findSome? (fun a => (f a).head?) := by
  induction l with
  | nil => rfl
  | cons a l ih =>
    rw [List.flatMap_cons, List.head?_append, ih, List.findSome?_cons]
    cases (f a).head? <;> rfl

theorem findSome?_one {α β : Type} (f : α → Option β) (a : α) : [a].findSome? f = f a := by
  rw [List.findSome?_cons]; cases f a <;> rfl

theorem takeWhile_get {p : Char → Bool} {s : Str} {i : Nat} (h : i < runLength p s) : ∃ c, s[i]? = some c ∧ p c = true := by
  induction s generalizing i with
  | nil => simp [runLength] at h
  | cons c cs ih =>
    by_cases hp : p c = true
    · have hr : runLength p (c :: cs) = runLength p cs + 1 := by simp [runLength, hp]
      cases i with
      | zero => exact ⟨c, rfl, hp⟩
      | succ i => rw [hr] at h; simpa using ih (by omega)
    · have hr : runLength p (c :: cs) = 0 := by simp [runLength, hp]
      omega

theorem drop_run (p : Char → Bool) (s : Str) : s.drop (runLength p s) = s.dropWhile p := by
  induction s with
  | nil => rfl
  | cons c cs ih =>
    by_cases hp : p c = true
    · have hr : runLength p (c :: cs) = runLength p cs + 1 := by simp [runLength, hp]
      rw [hr, List.drop_succ_cons, ih, List.dropWhile_cons_of_pos hp]
    · have hr : runLength p (c :: cs) = 0 := by simp [runLength, hp]
      rw [hr, List.dropWhile_cons_of_neg hp]; rfl

theorem head_drop_run (p : Char → Bool) (s : Str) (c : Char) (t : Str) (h : s.drop (runLength p s) = c :: t) : p c = false := by
  rw [drop_run] at h
  have := List.head?_dropWhile_not p s
  rw [h] at this
  simpa using this

/-! ### the pattern for numbers -/

theorem inSet_digit (c : Char) : inSet isWord isDigit false [.digit] c = isDigit c := by simp [inSet, Item.has]

theorem char_lit (c d : Char) : (decide (d.toNat ≤ c.toNat) && decide (c.toNat ≤ d.toNat)) = decide (c = d) := by
  rw [Bool.eq_iff_iff, Bool.and_eq_true, decide_eq_true_eq, decide_eq_true_eq, decide_eq_true_eq]
  constructor
  · intro h
    have : c.toNat = d.toNat := by omega
    exact Char.ext (UInt32.toNat_inj.1 this)
  · rintro rfl; omega

theorem has_lit (c d : Char) : Item.has isWord isDigit c (.lit d) = decide (c = d) := char_lit c d

abbrev digitsRe : Re := .seq (.star (.set false [.digit])) (.seq (.alt (.set false [.lit '.']) .eps) (.seq (.set false [.digit]) (.star (.set false [.digit]))))

/-- `[\d]+` at the start of `t`: what is left -/
def digs (t : Str) : Option Str := if runLength isDigit t = 0 then none else some (t.drop (runLength isDigit t))

/-- `[\.]?[\d]+` at the start of `t`: what is left -/
def digTail : Str → Option Str
  | [] => none
  | c :: t => if c = '.' then digs isDigit t else digs isDigit (c :: t)

theorem digTail_dot (t : Str) : digTail isDigit ('.' :: t) = digs isDigit t := by simp [digTail]
theorem digTail_ne {c : Char} (h : c ≠ '.') (t : Str) : digTail isDigit (c :: t) = digs isDigit (c :: t) := if_neg h

theorem head?_digTail (hdot : isDigit '.' = false) (u : Option Str) (t : Str) :
    (run isWord isDigit (.seq (.alt (.set false [.lit '.']) .eps) (.seq (.set false [.digit]) (.star (.set false [.digit])))) (u, t)).head? =
      (digTail isDigit t).map (fun r => (u, r)) := by
  have hin : inSet isWord isDigit false [.digit] = isDigit := funext (inSet_digit isWord isDigit)
  have hp : ∀ t : Str, (run isWord isDigit (.seq (.set false [.digit]) (.star (.set false [.digit]))) (u, t)).head? = (digs isDigit t).map (fun r => (u, r)) := by
    intro t
    rw [head?_plus_set, hin]; unfold digs
    split <;> rfl
  rw [run, run, List.flatMap_append, List.head?_append, head?_flatMap', head?_flatMap', run_set]
  have heps : ∀ t : Str, run isWord isDigit .eps (u, t) = [(u, t)] := fun t => rfl
  rw [heps, findSome?_one, hp]
  cases t with
  | nil => rfl
  | cons c t =>
    have hset : inSet isWord isDigit false [.lit '.'] c = decide (c = '.') := by
      unfold inSet; rw [List.any_cons, has_lit]; simp
    simp only [hset]
    by_cases hc : c = '.'
    · subst hc
      simp only [decide_true, if_true, findSome?_one, hp]
      have h0 : runLength isDigit ('.' :: t) = 0 := by simp [runLength, hdot]
      have h1 : digs isDigit ('.' :: t) = none := by unfold digs; rw [if_pos h0]
      have h2 : digTail isDigit ('.' :: t) = digs isDigit t := digTail_dot isDigit t
      rw [h1, h2]; simp
    · have h2 : digTail isDigit (c :: t) = digs isDigit (c :: t) := digTail_ne isDigit hc t
      simp only [hc, decide_false, List.findSome?_nil, Bool.false_eq_true, if_false]
      rw [h2]; rfl

theorem matchDigits_dot {s t : Str} (h : s.drop (runLength isDigit s) = '.' :: t) :
    matchDigits isDigit s = if runLength isDigit t ≠ 0 then some (runLength isDigit s + 1 + runLength isDigit t)
      else if runLength isDigit s ≠ 0 then some (runLength isDigit s) else none := by
  unfold matchDigits
  simp only [h]

theorem matchDigits_plain {s : Str} (h : ∀ t, s.drop (runLength isDigit s) ≠ '.' :: t) :
    matchDigits isDigit s = if runLength isDigit s ≠ 0 then some (runLength isDigit s) else none := by
  unfold matchDigits
  simp only

/-- `\d*[\.]?[\d]+` -/
theorem head?_digits (hdot : isDigit '.' = false) (u : Option Str) (s : Str) :
    (run isWord isDigit digitsRe (u, s)).head? = (matchDigits isDigit s).map (fun k => (u, s.drop k)) := by
  have hin : inSet isWord isDigit false [.digit] = isDigit := funext (inSet_digit isWord isDigit)
  rw [run, head?_flatMap', run_star_set, hin, List.findSome?_map]
  have hdef : ((fun a => (run isWord isDigit (.seq (.alt (.set false [.lit '.']) .eps) (.seq (.set false [.digit]) (.star (.set false [.digit])))) a).head?) ∘
      fun i => (u, s.drop i)) = fun i => (digTail isDigit (s.drop i)).map (fun r => (u, r)) := by
    funext i
    exact head?_digTail isWord isDigit hdot u (s.drop i)
  rw [hdef, findSome?_reverse_range]
  -- nothing but digits before
  have hback : (List.range (runLength isDigit s)).reverse.findSome? (fun i => (digTail isDigit (s.drop i)).map (fun r => (u, r))) =
      if runLength isDigit s = 0 then none else some (u, s.drop (runLength isDigit s)) := by
    cases hk : runLength isDigit s with
    | zero => rfl
    | succ k =>
      rw [findSome?_reverse_range]
      obtain ⟨c, hc, hd⟩ := takeWhile_get (p := isDigit) (s := s) (i := k) (by omega)
      have hdr : s.drop k = c :: s.drop (k + 1) := by
        obtain ⟨hlt, hg⟩ := List.getElem?_eq_some_iff.1 hc
        rw [List.drop_eq_getElem_cons hlt, hg]
      have hne : c ≠ '.' := by rintro rfl; rw [hdot] at hd; cases hd
      have hz : runLength isDigit (s.drop (k + 1)) = 0 := by
        cases hn : s.drop (k + 1) with
        | nil => rfl
        | cons c' t =>
          have := head_drop_run isDigit s c' t (by rw [hk]; exact hn)
          simp [runLength, this]
      have hone : runLength isDigit (c :: s.drop (k + 1)) = 1 := by
        have : runLength isDigit (c :: s.drop (k + 1)) = runLength isDigit (s.drop (k + 1)) + 1 := by simp [runLength, hd]
        rw [this, hz]
      have hval : digTail isDigit (s.drop k) = some (s.drop (k + 1)) := by
        rw [hdr, digTail_ne isDigit hne]
        unfold digs
        rw [hone]
        simp
      rw [hval]
      simp
  rw [hback]
  have hif : ∀ n : Nat, (if n = 0 then (none : Option Pos) else some (u, s.drop n)) = (if n ≠ 0 then some n else none).map (fun k => (u, s.drop k)) := by
    intro n; by_cases h : n = 0 <;> simp [h]
  rw [hif]
  cases hs : s.drop (runLength isDigit s) with
  | nil =>
    rw [matchDigits_plain isDigit (by rw [hs]; intro t h; cases h)]
    rfl
  | cons c t =>
    by_cases hc : c = '.'
    · subst hc
      rw [digTail_dot, matchDigits_dot isDigit hs]
      unfold digs
      by_cases hf : runLength isDigit t = 0
      · simp [hf]
      · have : s.drop (runLength isDigit s + 1 + runLength isDigit t) = t.drop (runLength isDigit t) := by
          rw [← List.drop_drop, ← List.drop_drop, hs]; rfl
        simp [hf, this]
    · have h1 : digTail isDigit (c :: t) = none := by
        have := head_drop_run isDigit s c t hs
        have h0 : runLength isDigit (c :: t) = 0 := by simp [runLength, this]
        rw [digTail_ne isDigit hc]
        unfold digs
        rw [if_pos h0]
      rw [h1, matchDigits_plain isDigit (by rw [hs]; intro t' h; exact hc (List.cons.inj h).1)]
      rfl

theorem matchDigits_bounds (s : Str) (k : Nat) (h : matchDigits isDigit s = some k) : 1 ≤ k ∧ k ≤ s.length := by
  unfold matchDigits at h
  simp only at h
  have h1 := runLength_le isDigit s
  split at h
  · rename_i rest he
    have h2 := runLength_le isDigit rest
    have h3 : s.length - runLength isDigit s = rest.length + 1 := by
      have := congrArg List.length he; simpa using this
    split at h
    · cases h; omega
    · split at h
      · cases h; omega
      · cases h
  · split at h
    · cases h; omega
    · cases h

abbrev signRe : Re := .alt (.set false [.lit '-', .lit '+']) .eps
abbrev numberRe : Re := .alt (.seq signRe digitsRe) (.seq signRe (.seq (.set false [.digit]) (.star (.set false [.digit]))))

theorem measures_number (hdot : isDigit '.' = false) (hminus : isDigit '-' = false) (hplus : isDigit '+' = false) :
    Measures isWord isDigit (.alt (.seq signRe (.seq (.star (.set false [.digit])) (.seq (.alt (.set false [.lit '.']) .eps) (.seq (.set false [.digit]) (.star (.set false [.digit])))))) (.seq signRe (.seq (.set false [.digit]) (.star (.set false [.digit]))))) (matchNumber isDigit) := by
  have hin : inSet isWord isDigit false [.digit] = isDigit := funext (inSet_digit isWord isDigit)
  have heps : ∀ t : Str, run isWord isDigit .eps (none, t) = [(none, t)] := fun t => rfl
  have hset : ∀ c, inSet isWord isDigit false [.lit '-', .lit '+'] c = (decide (c = '-') || decide (c = '+')) := by
    intro c; unfold inSet; rw [List.any_cons, List.any_cons, has_lit, has_lit]; simp
  intro s
  refine ⟨?_, ?_⟩
  · -- the second alternative never helps
    have key : ∀ t : Str, matchDigits isDigit t = none → runLength isDigit t = 0 := by
      intro t h
      unfold matchDigits at h
      simp only at h
      by_cases h0 : runLength isDigit t = 0
      · exact h0
      · split at h
        · split at h
          · cases h
          · cases h
        · rw [if_pos h0] at h; cases h
    have hplus' : ∀ t : Str, matchDigits isDigit t = none → (run isWord isDigit (.seq (.set false [.digit]) (.star (.set false [.digit]))) (none, t)).head? = none := by
      intro t h
      rw [head?_plus_set, hin, if_pos (key t h)]
    have hd : ∀ t : Str, (run isWord isDigit (.seq (.star (.set false [.digit])) (.seq (.alt (.set false [.lit '.']) .eps) (.seq (.set false [.digit]) (.star (.set false [.digit]))))) (none, t)).head? =
        (matchDigits isDigit t).map (fun k => (none, t.drop k)) := fun t => head?_digits isWord isDigit hdot none t
    have hseq : ∀ (b : Re), (run isWord isDigit (.seq signRe b) (none, s)).head? =
        match s with
        | [] => (run isWord isDigit b (none, [])).head?
        | c :: t => if c = '-' ∨ c = '+' then ((run isWord isDigit b (none, t)).head?).or (run isWord isDigit b (none, c :: t)).head?
            else (run isWord isDigit b (none, c :: t)).head? := by
      intro b
      rw [run, run, List.flatMap_append, List.head?_append, head?_flatMap', head?_flatMap', run_set, heps, findSome?_one]
      cases s with
      | nil => rfl
      | cons c t =>
        simp only [hset]
        by_cases hc : c = '-' ∨ c = '+'
        · have : (decide (c = '-') || decide (c = '+')) = true := by simpa using hc
          simp only [this, if_true, findSome?_one, hc]
        · have : (decide (c = '-') || decide (c = '+')) = false := by simpa using hc
          simp only [this, hc, if_false, Bool.false_eq_true, List.findSome?_nil]
          rfl
    rw [run, List.head?_append, hseq, hseq]
    cases s with
    | nil =>
      simp only [hd, hplus' [] rfl]
      rfl
    | cons c t =>
      by_cases hc : c = '-' ∨ c = '+'
      · have hnd : isDigit c = false := by rcases hc with rfl | rfl <;> assumption
        have hcdot : c ≠ '.' := by rcases hc with rfl | rfl <;> decide
        have hno : matchDigits isDigit (c :: t) = none := by
          unfold matchDigits
          have h0 : runLength isDigit (c :: t) = 0 := by simp [runLength, hnd]
          rw [h0]
          simp only [List.drop_zero]
          split
          · rename_i rest he; exact absurd (List.cons.inj he).1 hcdot
          · rfl
        have hm : matchNumber isDigit (c :: t) = (matchDigits isDigit t).map (· + 1) := by
          unfold matchNumber
          have : (decide (c = '-') || decide (c = '+')) = true := by simpa using hc
          simp only [this, if_true]
        simp only [hc, if_true, hd, hno, hplus' _ hno, hm]
        cases hmt : matchDigits isDigit t with
        | none => simp [hplus' t hmt]
        | some k => simp
      · have hm : matchNumber isDigit (c :: t) = matchDigits isDigit (c :: t) := by
          unfold matchNumber
          have : (decide (c = '-') || decide (c = '+')) = false := by simpa using hc
          simp only [this, Bool.false_eq_true, if_false]
        simp only [hc, if_false, hd, hm]
        cases hmt : matchDigits isDigit (c :: t) with
        | none => simp [hplus' _ hmt]
        | some k => simp
  · intro k hk
    unfold matchNumber at hk
    cases s with
    | nil => cases hk
    | cons c t =>
      simp only at hk
      split at hk
      · cases hmt : matchDigits isDigit t with
        | none => rw [hmt] at hk; cases hk
        | some j =>
          rw [hmt] at hk
          have := matchDigits_bounds isDigit t j hmt
          cases hk
          show 1 ≤ j + 1 ∧ j + 1 ≤ t.length + 1
          omega
      · exact matchDigits_bounds isDigit _ _ hk

end
end Regex

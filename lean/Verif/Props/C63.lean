import Verif.Props.C40
import Mathlib.Tactic.NormNum
import Mathlib.Tactic.Linarith
import Mathlib.Tactic.Ring
import Mathlib.Tactic.IntervalCases
/-! C63: which analysis of an eojeol the tagger with `EojeolTemplateMatcher` and the default `SimpleEojeolEvaluator` outputs. -/
set_option linter.unusedSimpArgs false
set_option linter.unusedVariables false
namespace Props
open Py PT

abbrev tNoun : Str := "Noun".toList
abbrev tJosa : Str := "Josa".toList
abbrev tVerb : Str := "Verb".toList
abbrev tAdj : Str := "Adjective".toList
abbrev tAdv : Str := "Adverb".toList
abbrev tExcl : Str := "Exclamation".toList

/-! ### specification -/

/-- `text` is the words `ws`, each the shortest word of the tag that begins what is left -/
inductive Greedy (d : State) (tag : Str) : Str → List Str → Prop
  | nil : Greedy d tag [] []
  | cons (w rest : Str) (ws : List Str) : w ≠ [] → d.wordIsTag w tag = true → (∀ a b, w = a ++ b → a ≠ [] → b ≠ [] → d.wordIsTag a tag = false) →
      Greedy d tag rest ws → Greedy d tag (w ++ rest) (w :: ws)

/-- the analyses of an eojeol `e`, with their rank and a number that orders those of the same rank -/
inductive Analysis (d : State) (e : Str) : Nat → Nat → List (Str × Option Str) → Prop
  | noun : d.wordIsTag e tNoun = true → Analysis d e 0 0 [(e, some tNoun)]
  | josa (l r : Str) : e = l ++ r → l ≠ [] → r ≠ [] → d.wordIsTag l tNoun = true → d.wordIsTag r tJosa = true →
      Analysis d e 1 l.length [(l, some tNoun), (r, some tJosa)]
  | verb (l r : Str) : e = l ++ r → l ≠ [] → r ≠ [] → d.wordIsTag l tNoun = true → d.wordIsTag r tVerb = true →
      Analysis d e 2 (2 * l.length) [(l, some tNoun), (r, some tVerb)]
  | adjective (l r : Str) : e = l ++ r → l ≠ [] → r ≠ [] → d.wordIsTag l tNoun = true → d.wordIsTag r tAdj = true →
      Analysis d e 2 (2 * l.length + 1) [(l, some tNoun), (r, some tAdj)]
  | single (t : Str) : t ∈ [tVerb, tAdj, tAdv, tExcl] → d.wordIsTag e t = true → Analysis d e 3 ((Dict.keys d.pos).idxOf t) [(e, some t)]
  | adverbs2 (a b : Str) : Greedy d tAdv e [a, b] → Analysis d e 4 0 [(a, some tAdv), (b, some tAdv)]
  | nouns2 (a b : Str) : Greedy d tNoun e [a, b] → Analysis d e 5 0 [(a, some tNoun), (b, some tNoun)]
  | adverbs3 (a b c : Str) : Greedy d tAdv e [a, b, c] → Analysis d e 6 0 [(a, some tAdv), (b, some tAdv), (c, some tAdv)]
  | unknown : Analysis d e 7 0 [(e, none)]

/-- no analysis ranks before it -/
def Preferred (d : State) (e : Str) (out : List (Str × Option Str)) : Prop :=
  ∃ rank tie, Analysis d e rank tie out ∧ ∀ rank' tie' out', Analysis d e rank' tie' out' → rank < rank' ∨ rank = rank' ∧ tie ≤ tie'

/-! ### compounds -/

private def mkWords (tag : Str) : Nat → List Str → List LR
  | _, [] => []
  | b, w :: ws => ⟨w, some tag, [], none, b, b + w.length, b + w.length⟩ :: mkWords tag (b + w.length) ws

private theorem findWord_some (d : State) (tag token : Str) (b : Nat) (i fuel j : Nat) (h : findWord d tag token b i fuel = some j) :
    i ≤ j ∧ j < i + fuel ∧ d.wordIsTag (slice token b j) tag = true ∧ ¬ (b = 0 ∧ j = token.length) ∧
    (∀ k, i ≤ k → k < j → d.wordIsTag (slice token b k) tag = false) := by
  induction fuel generalizing i with
  | zero => cases h
  | succ fuel ih =>
    rw [findWord] at h
    split at h
    · cases h
    · rename_i h0
      split at h
      · rename_i hw; cases h; exact ⟨Nat.le_refl _, by omega, hw, h0, fun k h1 h2 => by omega⟩
      · rename_i hw
        obtain ⟨h1, h2, h3, h4, h5⟩ := ih (i + 1) h
        refine ⟨by omega, by omega, h3, h4, ?_⟩
        intro k hk1 hk2
        by_cases e : k = i
        · rw [e]; simpa using hw
        · exact h5 k (by omega) hk2

private theorem findWord_of (d : State) (tag token : Str) (b : Nat) (i fuel j : Nat) (h1 : i ≤ j) (h2 : j < i + fuel) (h3 : d.wordIsTag (slice token b j) tag = true)
    (h4 : ∀ k, i ≤ k → k < j → d.wordIsTag (slice token b k) tag = false) (h5 : b = 0 → j < token.length) : findWord d tag token b i fuel = some j := by
  induction fuel generalizing i with
  | zero => omega
  | succ fuel ih =>
    rw [findWord, if_neg (by omega)]
    by_cases e : i = j
    · subst e; rw [if_pos h3]
    · rw [if_neg (by rw [h4 i (Nat.le_refl _) (by omega)]; decide)]
      exact ih (i + 1) (by omega) (by omega) (fun k hk => h4 k (by omega))

private theorem slice_add (s : Str) (b n : Nat) : slice s b (b + n) = (s.drop b).take n := by
  unfold slice
  rw [List.drop_take]
  congr 1
  omega

private theorem decompose_of (d : State) (tag e : Str) : ∀ (fuel b : Nat) (acc : List LR) (ws : List Str), b ≤ e.length → e.length < b + fuel →
    Greedy d tag (e.drop b) ws → (b = 0 → ws.length ≠ 1) → decomposeGo d tag e fuel b acc = acc ++ mkWords tag b ws := by
  intro fuel
  induction fuel with
  | zero => intro b acc ws h1 h2; omega
  | succ fuel ih =>
    intro b acc ws h1 h2 hg hb
    rw [decomposeGo]
    generalize hr : e.drop b = r at hg
    cases hg with
    | nil =>
      have : e.length ≤ b := List.drop_eq_nil_iff.1 hr
      rw [if_neg (by omega)]
      simp [mkWords]
    | cons w rest ws' k1 k2 k3 k4 =>
      have hlen : e.length - b = w.length + rest.length := by rw [← List.length_append, ← hr, List.length_drop]
      have hw : 0 < w.length := List.length_pos_iff.2 k1
      have hsl : ∀ n, slice e b (b + n) = (w ++ rest).take n := by intro n; rw [slice_add, hr]
      have hfind : findWord d tag e b (b + 1) (e.length - b) = some (b + w.length) := by
        refine findWord_of d tag e b _ _ _ (by omega) (by omega) ?_ ?_ ?_
        · rw [hsl, List.take_left]; exact k2
        · intro k hk1 hk2
          obtain ⟨n, rfl⟩ : ∃ n, k = b + n := ⟨k - b, by omega⟩
          rw [hsl, List.take_append_of_le_length (by omega)]
          refine k3 (w.take n) (w.drop n) (List.take_append_drop _ _).symm ?_ ?_
          · intro h
            have := congrArg List.length h
            rw [List.length_take, List.length_nil] at this
            omega
          · intro h
            have := congrArg List.length h
            rw [List.length_drop, List.length_nil] at this
            omega
        · intro hb0
          have := hb hb0
          cases k4 with
          | nil => exact absurd rfl this
          | cons w2 rest2 ws2 q1 _ _ _ =>
            have : 0 < w2.length := List.length_pos_iff.2 q1
            rw [List.length_append] at hlen
            omega
      rw [if_pos (by omega), hfind]
      dsimp only
      have hdrop : e.drop (b + w.length) = rest := by
        rw [← List.drop_drop, hr, List.drop_left]
      rw [ih (b + w.length) _ ws' (by omega) (by omega) (by rw [hdrop]; exact k4) (by omega)]
      rw [hsl, List.take_left, mkWords, List.append_assoc]
      rfl

private theorem decompose_only (d : State) (tag e : Str) : ∀ (fuel b : Nat) (acc : List LR), b ≤ e.length → e.length < b + fuel →
    decomposeGo d tag e fuel b acc ≠ [] → ∃ ws, Greedy d tag (e.drop b) ws ∧ (b = 0 → ws.length ≠ 1) := by
  intro fuel
  induction fuel with
  | zero => intro b acc h1 h2; omega
  | succ fuel ih =>
    intro b acc h1 h2 h
    rw [decomposeGo] at h
    by_cases hlt : b < e.length
    · rw [if_pos hlt] at h
      cases hf : findWord d tag e b (b + 1) (e.length - b) with
      | none => rw [hf] at h; exact absurd rfl h
      | some i =>
        rw [hf] at h
        dsimp only at h
        obtain ⟨k1, k2, k3, k4, k5⟩ := findWord_some _ _ _ _ _ _ _ hf
        obtain ⟨ws, q1, q2⟩ := ih i _ (by omega) (by omega) h
        have hsp : e.drop b = slice e b i ++ e.drop i := by
          unfold slice
          rw [← List.drop_append_of_le_length (by rw [List.length_take]; omega), List.take_append_drop]
        refine ⟨slice e b i :: ws, ?_, ?_⟩
        · rw [hsp]
          refine .cons _ _ _ ?_ k3 ?_ q1
          · intro h0
            have := congrArg List.length h0
            rw [length_slice, List.length_nil] at this
            omega
          · intro a c hac ha hc
            have hal : 0 < a.length := List.length_pos_iff.2 ha
            have hcl : 0 < c.length := List.length_pos_iff.2 hc
            have hl := congrArg List.length hac
            rw [length_slice, List.length_append] at hl
            have : a = slice e b (b + a.length) := by
              rw [slice_add, hsp, hac, List.append_assoc, List.take_left]
            rw [this]
            exact k5 _ (by omega) (by omega)
        · intro hb0
          cases ws with
          | nil =>
            exfalso
            have : e.drop i = [] := by
              generalize e.drop i = x at q1
              cases q1; rfl
            have := List.drop_eq_nil_iff.1 this
            exact k4 ⟨hb0, by omega⟩
          | cons => simp
    · exact ⟨[], by rw [List.drop_eq_nil_of_le (by omega)]; exact .nil, by intro _ h; cases h⟩

private theorem flatten_mkWords (tag : Str) : ∀ (ws : List Str) (b : Nat), (∀ w ∈ ws, w ≠ []) → flattenWords (mkWords tag b ws) = ws.map (fun w => (w, some tag)) := by
  intro ws
  induction ws with
  | nil => intro b _; rfl
  | cons w ws ih =>
    intro b h
    have := ih (b + w.length) (fun x hx => h x (List.mem_cons_of_mem _ hx))
    unfold flattenWords at this ⊢
    rw [mkWords, List.flatMap_cons, this]
    simp [h w List.mem_cons_self]

private theorem length_mkWords (tag : Str) : ∀ (ws : List Str) (b : Nat), (mkWords tag b ws).length = ws.length := by
  intro ws
  induction ws with
  | nil => intro b; rfl
  | cons w ws ih => intro b; rw [mkWords, List.length_cons, ih, List.length_cons]

private theorem tag_mkWords (tag : Str) : ∀ (ws : List Str) (b : Nat), ∀ x ∈ mkWords tag b ws, x.lTag = some tag := by
  intro ws
  induction ws with
  | nil => intro b x hx; cases hx
  | cons w ws ih =>
    intro b x hx
    rcases List.mem_cons.1 hx with rfl | hx
    · rfl
    · exact ih _ x hx

private theorem greedy_ne {d : State} {tag e : Str} {ws : List Str} (h : Greedy d tag e ws) : ∀ w ∈ ws, w ≠ [] := by
  induction h with
  | nil => intro w hw; cases hw
  | cons w rest ws k1 _ _ _ ih =>
    intro x hx
    rcases List.mem_cons.1 hx with rfl | hx
    · exact k1
    · exact ih x hx

private theorem compound_iff (d : State) (tag e : Str) (he : e ≠ []) (c : List LR) (hc : c ≠ []) :
    decomposeCompound d e tag = c ↔ ∃ ws, Greedy d tag e ws ∧ 2 ≤ ws.length ∧ c = mkWords tag 0 ws := by
  have hpos : ∀ ws, Greedy d tag e ws → ws.length ≠ 0 := by
    intro ws h h0
    rw [List.length_eq_zero_iff] at h0
    subst h0
    cases h
    exact he rfl
  unfold decomposeCompound
  constructor
  · intro h
    obtain ⟨ws, q1, q2⟩ := decompose_only d tag e (e.length + 1) 0 [] (by omega) (by omega) (by rw [h]; exact hc)
    rw [List.drop_zero] at q1
    have := hpos ws q1
    refine ⟨ws, q1, by have := q2 rfl; omega, ?_⟩
    rw [← h, decompose_of d tag e (e.length + 1) 0 [] ws (by omega) (by omega) (by rw [List.drop_zero]; exact q1) q2]
    rfl
  · rintro ⟨ws, q1, q2, rfl⟩
    rw [decompose_of d tag e (e.length + 1) 0 [] ws (by omega) (by omega) (by rw [List.drop_zero]; exact q1) (by omega)]
    rfl

/-! ### scores -/

/-- the score of a rank -/
private def sigma : Nat → Rat
  | 0 => 3/20 | 1 => 1/20 | 2 => -1/20 | 3 => -3/20 | 4 => -4/20 | 5 => -7/20 | 6 => -7/20 | 7 => -9/20 | _ => -1/2

/-- rank and tie number of a candidate -/
private def key (d : State) : List LR → Nat × Nat
  | [x] => if x.r = [] then (if x.lTag = none then (7, 0) else if x.lTag = some tNoun then (0, 0) else (3, (Dict.keys d.pos).idxOf (x.lTag.getD [])))
      else if x.rTag = some tJosa then (1, x.m) else if x.rTag = some tVerb then (2, 2 * x.m) else (2, 2 * x.m + 1)
  | [] => (9, 0)
  | x :: xs => if x.lTag = some tNoun then (if xs.length = 1 then (5, 0) else (8, 0)) else (if xs.length = 1 then (4, 0) else if xs.length = 2 then (6, 0) else (8, 0))

/-- the candidates of the default matcher -/
private inductive Cand (d : State) (e : Str) : List LR → Prop
  | single (t : Str) : t ∈ [tNoun, tVerb, tAdj, tAdv, tExcl] → d.wordIsTag e t = true → Cand d e [⟨e, some t, [], none, 0, e.length, e.length⟩]
  | unknown : (∀ t ∈ [tNoun, tVerb, tAdj, tAdv, tExcl], d.wordIsTag e t = false) → Cand d e [⟨e, none, [], none, 0, e.length, e.length⟩]
  | pair (l r t : Str) : e = l ++ r → l ≠ [] → r ≠ [] → t ∈ [tVerb, tAdj, tJosa] → d.wordIsTag l tNoun = true → d.wordIsTag r t = true →
      Cand d e [⟨l, some tNoun, r, some t, 0, l.length, e.length⟩]
  | nouns (ws : List Str) : Greedy d tNoun e ws → 2 ≤ ws.length → Cand d e (mkWords tNoun 0 ws)
  | adverbs (ws : List Str) : Greedy d tAdv e ws → 2 ≤ ws.length → Cand d e (mkWords tAdv 0 ws)

private theorem score_all (tag : Str) (c : List LR) (h2 : 2 ≤ c.length) (h : ∀ x ∈ c, x.lTag = some tag) :
    evaluateEojeol {} c = (if tag = tNoun then 3/20 - (c.length : Rat)/4 else if tag = tAdv then 1/10 - 3 * (c.length : Rat)/20 else -3 * (c.length : Rat)/20) := by
  have hcnt : ∀ t, countTag c t = if t = some tag then c.length else 0 := by
    intro t
    unfold countTag
    by_cases ht : t = some tag
    · rw [if_pos ht, List.countP_eq_length]
      intro x hx
      rw [decide_eq_true_iff, h x hx, ht]
    · rw [if_neg ht, List.countP_eq_zero]
      intro x hx
      rw [decide_eq_true_iff, h x hx]
      exact fun h => ht h.symm
  have hm : ∃ a b cs, c = a :: b :: cs := by
    match c, h2 with
    | a :: b :: cs, _ => exact ⟨a, b, cs, rfl⟩
  unfold evaluateEojeol
  rw [hcnt, hcnt, hcnt]
  obtain ⟨a, b, cs, rfl⟩ := hm
  simp only
  have hl : (a :: b :: cs).length > 1 := by simp
  have hpos : (a :: b :: cs).length > 0 := by simp
  generalize (a :: b :: cs).length = n at *
  by_cases h1 : tag = tNoun
  · subst h1
    have hne : ¬ (some tAdv = some tNoun) := by decide
    rw [if_pos rfl, if_neg hne, if_neg (by simp), if_pos rfl]
    simp only [b2r, hl, hpos, decide_true, if_true, and_self]
    have : ¬ n = 0 := by omega
    simp [this]
    ring
  · have hne : ¬ (some tNoun = some tag) := by intro h; exact h1 (Option.some.inj h).symm
    rw [if_neg hne, if_neg (show ¬ (none = some tag) by simp), if_neg h1]
    by_cases h3 : tag = tAdv
    · subst h3
      rw [if_pos rfl, if_pos rfl]
      have : ¬ n = 0 := by omega
      simp [b2r, hl, this]
      ring
    · have hne : ¬ (some tAdv = some tag) := by intro h; exact h3 (Option.some.inj h).symm
      rw [if_neg hne, if_neg h3]
      have : ¬ n = 0 := by omega
      simp [b2r, hl, this]
      ring

private theorem score_single (x : LR) : evaluateEojeol {} [x] =
    (if x.lTag = some tNoun then 1/10 else 0) - 3/20 + (if x.lTag = none then -3/10 else 0) +
    (if x.lTag = some tNoun ∧ x.rTag = some tJosa then 1/10 else 0) + (if x.lTag = some tNoun ∧ x.r = [] then 2/10 else 0) := by
  have hc : ∀ t, countTag [x] t = if x.lTag = t then 1 else 0 := by
    intro t
    unfold countTag
    by_cases h : x.lTag = t
    · simp [h]
    · simp [h]
  have hev : evaluateEojeol {} [x] = (countTag [x] (some tNoun) : Rat) * (-1/10) + ((1 : Nat) : Rat) * (-15/100) + b2r (decide (countTag [x] (some tNoun) > 0)) * (2/10) +
      (countTag [x] none : Rat) * (-3/10) + b2r (decide (1 > 1 ∧ 1 = countTag [x] (some tAdv))) * (1/10) +
      b2r (decide (1 > 1 ∧ 1 = countTag [x] (some tNoun))) * (-5/100) + b2r (decide (x.lTag = some tNoun ∧ x.rTag = some tJosa)) * (1/10) +
      b2r (decide (x.lTag = some tNoun ∧ x.r = [])) * (2/10) := rfl
  rw [hev, hc, hc, hc]
  by_cases h2 : x.lTag = some tNoun
  · have h3 : ¬ (x.lTag = none) := by rw [h2]; simp
    rw [if_pos h2, if_pos h2, if_neg h3, if_neg h3]
    by_cases h4 : x.rTag = some tJosa <;> by_cases h5 : x.r = [] <;> simp [b2r, h2, h4, h5] <;> norm_num
  · rw [if_neg h2, if_neg h2]
    by_cases h3 : x.lTag = none
    · simp [b2r, h3]; norm_num
    · simp [b2r, h2, h3]; norm_num

private theorem key_mkWords (d : State) (tag : Str) (ws : List Str) (h2 : 2 ≤ ws.length) : key d (mkWords tag 0 ws) =
    if tag = tNoun then (if ws.length = 2 then (5, 0) else (8, 0)) else (if ws.length = 2 then (4, 0) else if ws.length = 3 then (6, 0) else (8, 0)) := by
  match ws, h2 with
  | a :: b :: ws, _ =>
    have h1 : mkWords tag 0 (a :: b :: ws) = ⟨a, some tag, [], none, 0, 0 + a.length, 0 + a.length⟩ ::
      ⟨b, some tag, [], none, 0 + a.length, 0 + a.length + b.length, 0 + a.length + b.length⟩ :: mkWords tag (0 + a.length + b.length) ws := rfl
    rw [h1, key]
    · rw [List.length_cons, length_mkWords, List.length_cons, List.length_cons]
      by_cases h : tag = tNoun
      · rw [if_pos (by rw [h]), if_pos h]
        by_cases h2 : ws.length = 0
        · rw [if_pos (show ws.length + 1 = 1 by omega), if_pos (show ws.length + 1 + 1 = 2 by omega)]
        · rw [if_neg (show ¬ ws.length + 1 = 1 by omega), if_neg (show ¬ ws.length + 1 + 1 = 2 by omega)]
      · rw [if_neg (by intro e; exact h (Option.some.inj e)), if_neg h]
        by_cases h2 : ws.length = 0
        · rw [if_pos (show ws.length + 1 = 1 by omega), if_pos (show ws.length + 1 + 1 = 2 by omega)]
        · rw [if_neg (show ¬ ws.length + 1 = 1 by omega), if_neg (show ¬ ws.length + 1 + 1 = 2 by omega)]
          by_cases h2 : ws.length = 1
          · rw [if_pos (show ws.length + 1 = 2 by omega), if_pos (show ws.length + 1 + 1 = 3 by omega)]
          · rw [if_neg (show ¬ ws.length + 1 = 2 by omega), if_neg (show ¬ ws.length + 1 + 1 = 3 by omega)]
    · simp

private theorem key_pair (d : State) (l r t : Str) (b e : Nat) (hr : r ≠ []) : key d [⟨l, some tNoun, r, some t, b, l.length, e⟩] =
    if t = tJosa then (1, l.length) else if t = tVerb then (2, 2 * l.length) else (2, 2 * l.length + 1) := by
  rw [key]
  dsimp only
  rw [if_neg hr]
  by_cases h : t = tJosa
  · rw [if_pos (by rw [h]), if_pos h]
  · rw [if_neg (by intro e; exact h (Option.some.inj e)), if_neg h]
    by_cases h : t = tVerb
    · rw [if_pos (by rw [h]), if_pos h]
    · rw [if_neg (by intro e; exact h (Option.some.inj e)), if_neg h]

private theorem key_single (d : State) (e t : Str) (m n : Nat) : key d [⟨e, some t, [], none, 0, m, n⟩] =
    if t = tNoun then (0, 0) else (3, (Dict.keys d.pos).idxOf t) := by
  rw [key]
  dsimp only
  rw [if_pos rfl, if_neg (by simp)]
  by_cases h : t = tNoun
  · rw [if_pos (by rw [h]), if_pos h]
  · rw [if_neg (by intro e; exact h (Option.some.inj e)), if_neg h]
    rfl

private theorem key_unknown (d : State) (e : Str) (m n : Nat) : key d [⟨e, none, [], none, 0, m, n⟩] = (7, 0) := by
  rw [key]
  dsimp only
  rw [if_pos rfl, if_pos rfl]

/-- the score of a candidate is that of its rank -/
private theorem cand_score (d : State) (e : Str) (c : List LR) (h : Cand d e c) :
    (key d c).1 ≤ 8 ∧ ((key d c).1 < 8 → evaluateEojeol {} c = sigma (key d c).1) ∧ ((key d c).1 = 8 → evaluateEojeol {} c ≤ -1/2) := by
  cases h with
  | single t ht hw =>
    rw [key_single, score_single]
    dsimp only
    by_cases h : t = tNoun
    · rw [if_pos h]
      refine ⟨by simp, fun _ => ?_, fun h => absurd h (by simp)⟩
      subst h
      simp [sigma]; norm_num
    · rw [if_neg h]
      refine ⟨by simp, fun _ => ?_, fun h => absurd h (by simp)⟩
      have : ¬ (some t = some tNoun) := by intro e; exact h (Option.some.inj e)
      simp only [this, false_and, if_false, sigma]
      simp
      norm_num
  | unknown hu =>
    rw [key_unknown, score_single]
    refine ⟨by simp, fun _ => ?_, fun h => absurd h (by simp)⟩
    simp [sigma]; norm_num
  | pair l r t he hl hr ht hn hw =>
    rw [key_pair d _ _ _ _ _ hr, score_single]
    dsimp only
    by_cases h : t = tJosa
    · rw [if_pos h]
      refine ⟨by simp, fun _ => ?_, fun h => absurd h (by simp)⟩
      simp [sigma, h, hr]; norm_num
    · have h' : ¬ (some t = some tJosa) := by intro e; exact h (Option.some.inj e)
      have h3 : (if t = tJosa then (1, l.length) else if t = tVerb then (2, 2 * l.length) else (2, 2 * l.length + 1)).1 = 2 := by
        rw [if_neg h]; split <;> rfl
      rw [h3]
      refine ⟨by simp, fun _ => ?_, fun h => absurd h (by simp)⟩
      simp [sigma, h', hr]
      norm_num
  | nouns ws hg h2 =>
    rw [key_mkWords d _ _ h2, score_all tNoun _ (by rw [length_mkWords]; exact h2) (tag_mkWords _ _ _), length_mkWords, if_pos rfl, if_pos rfl]
    by_cases h : ws.length = 2
    · rw [if_pos h, h]
      refine ⟨by simp, fun _ => ?_, fun h => absurd h (by simp)⟩
      simp [sigma]; norm_num
    · rw [if_neg h]
      refine ⟨by simp, fun h => absurd h (by simp), fun _ => ?_⟩
      have : (3 : Rat) ≤ (ws.length : Rat) := by exact_mod_cast (by omega : 3 ≤ ws.length)
      linarith
  | adverbs ws hg h2 =>
    have hne : ¬ (tAdv = tNoun) := by decide
    rw [key_mkWords d _ _ h2, score_all tAdv _ (by rw [length_mkWords]; exact h2) (tag_mkWords _ _ _), length_mkWords, if_neg hne, if_neg hne, if_pos rfl]
    by_cases h : ws.length = 2
    · rw [if_pos h, h]
      refine ⟨by simp, fun _ => ?_, fun h => absurd h (by simp)⟩
      simp [sigma]; norm_num
    · rw [if_neg h]
      by_cases h : ws.length = 3
      · rw [if_pos h, h]
        refine ⟨by simp, fun _ => ?_, fun h => absurd h (by simp)⟩
        simp [sigma]; norm_num
      · rw [if_neg h]
        refine ⟨by simp, fun h => absurd h (by simp), fun _ => ?_⟩
        have : (4 : Rat) ≤ (ws.length : Rat) := by exact_mod_cast (by omega : 4 ≤ ws.length)
        linarith

/-! ### the candidates and their order -/

private theorem mem_singles (d : State) (hd : DReach d) (e : Str) (c : List LR) :
    c ∈ singles ⟨d, [tNoun, tVerb, tAdj, tAdv, tExcl], [(tNoun, tVerb), (tNoun, tAdj), (tNoun, tJosa)]⟩ e ↔
      (∃ t ∈ [tNoun, tVerb, tAdj, tAdv, tExcl], d.wordIsTag e t = true ∧ c = [⟨e, some t, [], none, 0, e.length, e.length⟩]) ∨
      (∀ t ∈ [tNoun, tVerb, tAdj, tAdv, tExcl], d.wordIsTag e t = false) ∧ c = [⟨e, none, [], none, 0, e.length, e.length⟩] := by
  unfold singles
  dsimp only
  have hm : ∀ t, t ∈ (d.getPos e).filter (fun t => decide (t ∈ [tNoun, tVerb, tAdj, tAdv, tExcl])) ↔
      t ∈ [tNoun, tVerb, tAdj, tAdv, tExcl] ∧ d.wordIsTag e t = true := by
    intro t
    rw [List.mem_filter, (C38_get_pos d hd e t).2, decide_eq_true_iff]
    exact And.comm
  generalize (d.getPos e).filter (fun t => decide (t ∈ [tNoun, tVerb, tAdj, tAdv, tExcl])) = L at hm
  split
  · rename_i h
    have hL : L = [] := List.map_eq_nil_iff.1 h
    have hno : ∀ t ∈ [tNoun, tVerb, tAdj, tAdv, tExcl], d.wordIsTag e t = false := by
      intro t ht
      cases hw : d.wordIsTag e t with
      | false => rfl
      | true => have := (hm t).2 ⟨ht, hw⟩; rw [hL] at this; cases this
    rw [List.mem_singleton]
    constructor
    · intro h; exact .inr ⟨hno, h⟩
    · rintro (⟨t, ht, hw, _⟩ | ⟨_, h⟩)
      · rw [hno t ht] at hw; cases hw
      · exact h
  · rename_i h
    rw [List.mem_map]
    constructor
    · rintro ⟨t, ht, rfl⟩
      exact .inl ⟨t, ((hm t).1 ht).1, ((hm t).1 ht).2, rfl⟩
    · rintro (⟨t, ht, hw, rfl⟩ | ⟨hno, _⟩)
      · exact ⟨t, (hm t).2 ⟨ht, hw⟩, rfl⟩
      · exfalso
        cases L with
        | nil => exact h rfl
        | cons t L =>
          have := (hm t).1 List.mem_cons_self
          rw [hno t this.1] at this
          cases this.2

private theorem mem_pairs (d : State) (e : Str) (c : List LR) :
    c ∈ pairs ⟨d, [tNoun, tVerb, tAdj, tAdv, tExcl], [(tNoun, tVerb), (tNoun, tAdj), (tNoun, tJosa)]⟩ e ↔
      ∃ l r t, e = l ++ r ∧ l ≠ [] ∧ r ≠ [] ∧ t ∈ [tVerb, tAdj, tJosa] ∧ d.wordIsTag l tNoun = true ∧ d.wordIsTag r t = true ∧
        c = [⟨l, some tNoun, r, some t, 0, l.length, e.length⟩] := by
  unfold pairs
  dsimp only
  rw [List.mem_flatMap]
  constructor
  · rintro ⟨b, hb, hc⟩
    rw [List.mem_range] at hb
    obtain ⟨⟨t1, t2⟩, ht, rfl⟩ := List.mem_map.1 hc
    obtain ⟨ht1, ht2⟩ := List.mem_filter.1 ht
    rw [Bool.and_eq_true] at ht2
    have h1 : t1 = tNoun ∧ t2 ∈ [tVerb, tAdj, tJosa] := by
      rcases List.mem_cons.1 ht1 with h | ht1
      · rw [(Prod.mk.inj h).1, (Prod.mk.inj h).2]; exact ⟨rfl, by decide⟩
      rcases List.mem_cons.1 ht1 with h | ht1
      · rw [(Prod.mk.inj h).1, (Prod.mk.inj h).2]; exact ⟨rfl, by decide⟩
      rcases List.mem_cons.1 ht1 with h | ht1
      · rw [(Prod.mk.inj h).1, (Prod.mk.inj h).2]; exact ⟨rfl, by decide⟩
      cases ht1
    obtain ⟨rfl, h2⟩ := h1
    have hl : (e.take (b + 1)).length = b + 1 := by rw [List.length_take]; omega
    refine ⟨e.take (b + 1), e.drop (b + 1), t2, (List.take_append_drop _ _).symm, ?_, ?_, h2, ht2.1, ht2.2, by rw [hl]⟩
    · intro h; rw [h] at hl; cases hl
    · intro h; have := List.drop_eq_nil_iff.1 h; omega
  · rintro ⟨l, r, t, rfl, hl, hr, ht, hn, hw, rfl⟩
    have h1 : 0 < l.length := List.length_pos_iff.2 hl
    have h2 : 0 < r.length := List.length_pos_iff.2 hr
    refine ⟨l.length - 1, by rw [List.mem_range, List.length_append]; omega, ?_⟩
    have h3 : l.length - 1 + 1 = l.length := by omega
    rw [h3, List.take_left, List.drop_left, List.mem_map]
    refine ⟨(tNoun, t), List.mem_filter.2 ⟨?_, by dsimp only; rw [hn, hw]; rfl⟩, rfl⟩
    rcases List.mem_cons.1 ht with rfl | ht
    · exact .head _
    rcases List.mem_cons.1 ht with rfl | ht
    · exact .tail _ (.head _)
    rcases List.mem_cons.1 ht with rfl | ht
    · exact .tail _ (.tail _ (.head _))
    cases ht

private theorem mem_compound (d : State) (tag e : Str) (he : e ≠ []) (c : List LR) :
    c ∈ (if decomposeCompound d e tag = [] then [] else [decomposeCompound d e tag]) ↔ ∃ ws, Greedy d tag e ws ∧ 2 ≤ ws.length ∧ c = mkWords tag 0 ws := by
  by_cases h : decomposeCompound d e tag = []
  · rw [if_pos h]
    constructor
    · intro h; cases h
    · rintro ⟨ws, h1, h2, rfl⟩
      have h3 : mkWords tag 0 ws ≠ [] := by
        intro h0
        have := length_mkWords tag ws 0
        rw [h0, List.length_nil] at this; omega
      rw [(compound_iff d tag e he _ h3).2 ⟨ws, h1, h2, rfl⟩] at h
      exact absurd h h3
  · rw [if_neg h, List.mem_singleton]
    constructor
    · rintro rfl
      exact (compound_iff d tag e he _ h).1 rfl
    · rintro ⟨ws, h1, h2, rfl⟩
      have h3 : mkWords tag 0 ws ≠ [] := by
        intro h0
        have := length_mkWords tag ws 0
        rw [h0, List.length_nil] at this; omega
      exact ((compound_iff d tag e he _ h3).2 ⟨ws, h1, h2, rfl⟩).symm

private theorem generate_eq (d : State) (e : Str) : ({dictionary := d} : EojeolMatcher).generate e =
    singles ⟨d, [tNoun, tVerb, tAdj, tAdv, tExcl], [(tNoun, tVerb), (tNoun, tAdj), (tNoun, tJosa)]⟩ e ++
    pairs ⟨d, [tNoun, tVerb, tAdj, tAdv, tExcl], [(tNoun, tVerb), (tNoun, tAdj), (tNoun, tJosa)]⟩ e ++
    (if decomposeCompound d e tNoun = [] then [] else [decomposeCompound d e tNoun]) ++
    (if decomposeCompound d e tAdv = [] then [] else [decomposeCompound d e tAdv]) := rfl

private theorem mem_generate (d : State) (hd : DReach d) (e : Str) (he : e ≠ []) (c : List LR) :
    c ∈ ({dictionary := d} : EojeolMatcher).generate e ↔ Cand d e c := by
  rw [generate_eq, List.mem_append, List.mem_append, List.mem_append, mem_singles d hd, mem_pairs, mem_compound d _ e he, mem_compound d _ e he]
  constructor
  · rintro ((((⟨t, ht, hw, rfl⟩ | ⟨h, rfl⟩) | ⟨l, r, t, h1, h2, h3, h4, h5, h6, rfl⟩) | ⟨ws, h1, h2, rfl⟩) | ⟨ws, h1, h2, rfl⟩)
    · exact .single t ht hw
    · exact .unknown h
    · exact .pair l r t h1 h2 h3 h4 h5 h6
    · exact .nouns ws h1 h2
    · exact .adverbs ws h1 h2
  · intro h
    cases h with
    | single t ht hw => exact .inl (.inl (.inl (.inl ⟨t, ht, hw, rfl⟩)))
    | unknown h => exact .inl (.inl (.inl (.inr ⟨h, rfl⟩)))
    | pair l r t h1 h2 h3 h4 h5 h6 => exact .inl (.inl (.inr ⟨l, r, t, h1, h2, h3, h4, h5, h6, rfl⟩))
    | nouns ws h1 h2 => exact .inl (.inr ⟨ws, h1, h2, rfl⟩)
    | adverbs ws h1 h2 => exact .inr ⟨ws, h1, h2, rfl⟩

/-- what the order of the candidates has to respect -/
private def Rle (a b : Nat × Nat) : Prop := ¬ (a.1 = 6 ∧ b.1 = 5) ∧ (a.1 = b.1 → a.2 ≤ b.2)

private theorem idx_sorted (l : List Str) (h : l.Nodup) : l.Pairwise (fun a b => l.idxOf a ≤ l.idxOf b) := by
  rw [List.pairwise_iff_getElem]
  intro i j hi hj hij
  rw [h.idxOf_getElem i hi, h.idxOf_getElem j hj]
  omega

private theorem order_generate (d : State) (hd : DReach d) (e : Str) (he : e ≠ []) :
    (({dictionary := d} : EojeolMatcher).generate e).Pairwise (fun a b => Rle (key d a) (key d b)) := by
  rw [generate_eq]
  -- the ranks of the four blocks
  have r1 : ∀ c ∈ singles ⟨d, [tNoun, tVerb, tAdj, tAdv, tExcl], [(tNoun, tVerb), (tNoun, tAdj), (tNoun, tJosa)]⟩ e,
      (key d c).1 = 0 ∨ (key d c).1 = 3 ∨ (key d c).1 = 7 := by
    intro c hc
    rcases (mem_singles d hd e c).1 hc with ⟨t, _, _, rfl⟩ | ⟨_, rfl⟩
    · rw [key_single]; split <;> simp
    · rw [key_unknown]; simp
  have r2 : ∀ c ∈ pairs ⟨d, [tNoun, tVerb, tAdj, tAdv, tExcl], [(tNoun, tVerb), (tNoun, tAdj), (tNoun, tJosa)]⟩ e,
      (key d c).1 = 1 ∨ (key d c).1 = 2 := by
    intro c hc
    obtain ⟨l, r, t, _, _, h3, _, _, _, rfl⟩ := (mem_pairs d e c).1 hc
    rw [key_pair d _ _ _ _ _ h3]
    split
    · simp
    · split <;> simp
  have r3 : ∀ c ∈ (if decomposeCompound d e tNoun = [] then [] else [decomposeCompound d e tNoun]), ((key d c).1 = 5 ∨ (key d c).1 = 8) ∧ (key d c).2 = 0 := by
    intro c hc
    obtain ⟨ws, h1, h2, rfl⟩ := (mem_compound d _ e he c).1 hc
    rw [key_mkWords d _ _ h2, if_pos rfl]
    split <;> simp
  have r4 : ∀ c ∈ (if decomposeCompound d e tAdv = [] then [] else [decomposeCompound d e tAdv]), ((key d c).1 = 4 ∨ (key d c).1 = 6 ∨ (key d c).1 = 8) ∧ (key d c).2 = 0 := by
    intro c hc
    obtain ⟨ws, h1, h2, rfl⟩ := (mem_compound d _ e he c).1 hc
    rw [key_mkWords d _ _ h2, if_neg (by decide)]
    split
    · simp
    · split <;> simp
  refine List.pairwise_append.2 ⟨List.pairwise_append.2 ⟨List.pairwise_append.2 ⟨?_, ?_, ?_⟩, ?_, ?_⟩, ?_, ?_⟩
  · unfold singles
    dsimp only
    split
    · exact List.pairwise_singleton _ _
    · rw [List.pairwise_map]
      refine List.Pairwise.imp ?_ ((idx_sorted (Dict.keys d.pos) hd.inv.wf).sublist ?_)
      · intro a b hab
        rw [key_single, key_single]
        refine ⟨?_, ?_⟩
        · split <;> split <;> simp
        · split <;> split
          · simp
          · simp
          · simp
          · intro _; exact hab
      · refine List.Sublist.trans List.filter_sublist ?_
        unfold State.getPos Dict.keys
        exact List.filter_sublist.map _
  · unfold pairs
    dsimp only
    rw [List.pairwise_flatMap]
    constructor
    · intro b hb
      rw [List.mem_range] at hb
      have hr : e.drop (b + 1) ≠ [] := by
        intro h; have := List.drop_eq_nil_iff.1 h; omega
      have hl : (e.take (b + 1)).length = b + 1 := by rw [List.length_take]; omega
      rw [List.pairwise_map]
      have hk : ∀ t1 t2 : Str, t1 = tNoun → key d [⟨e.take (b + 1), some t1, e.drop (b + 1), some t2, 0, b + 1, e.length⟩] =
          if t2 = tJosa then (1, b + 1) else if t2 = tVerb then (2, 2 * (b + 1)) else (2, 2 * (b + 1) + 1) := by
        rintro t1 t2 rfl
        have := key_pair d (e.take (b + 1)) (e.drop (b + 1)) t2 0 e.length hr
        rw [hl] at this
        exact this
      have h0 : [(tNoun, tVerb), (tNoun, tAdj), (tNoun, tJosa)].Pairwise (fun a b => a.1 = tNoun ∧ b.1 = tNoun ∧ a.2 ≠ tJosa ∧
          (b.2 = tVerb → a.2 = tVerb)) := by decide
      refine List.Pairwise.imp ?_ (h0.sublist List.filter_sublist)
      rintro ⟨a1, a2⟩ ⟨b1, b2⟩ ⟨h1, h2, h3, h4⟩
      dsimp only at h1 h2 h3 h4 ⊢
      rw [hk _ _ h1, hk _ _ h2, if_neg h3]
      refine ⟨?_, ?_⟩
      · split <;> split <;> simp
      · by_cases hb : b2 = tJosa
        · rw [if_pos hb]; split <;> simp
        · rw [if_neg hb]
          by_cases hv : b2 = tVerb
          · rw [if_pos hv, if_pos (h4 hv)]; simp
          · rw [if_neg hv]; split <;> simp
    · refine List.Pairwise.imp_of_mem ?_ List.pairwise_lt_range
      intro b b' hb hb' hlt c hc c' hc'
      rw [List.mem_range] at hb hb'
      have hk : ∀ b < e.length - 1, ∀ c ∈ (List.filter (fun t : Str × Str => d.wordIsTag (e.take (b + 1)) t.1 && d.wordIsTag (e.drop (b + 1)) t.2)
          [(tNoun, tVerb), (tNoun, tAdj), (tNoun, tJosa)]).map (fun t => ([⟨e.take (b + 1), some t.1, e.drop (b + 1), some t.2, 0, b + 1, e.length⟩] : List LR)),
          key d c = (1, b + 1) ∨ key d c = (2, 2 * (b + 1)) ∨ key d c = (2, 2 * (b + 1) + 1) := by
        intro b hb c hc
        obtain ⟨⟨t1, t2⟩, ht, rfl⟩ := List.mem_map.1 hc
        have h1 : t1 = tNoun := by
          have := (List.mem_filter.1 ht).1
          have h0 : ∀ x ∈ [(tNoun, tVerb), (tNoun, tAdj), (tNoun, tJosa)], x.1 = tNoun := by decide
          exact h0 _ this
        have hr : e.drop (b + 1) ≠ [] := by
          intro h; have := List.drop_eq_nil_iff.1 h; omega
        have hl : (e.take (b + 1)).length = b + 1 := by rw [List.length_take]; omega
        have := key_pair d (e.take (b + 1)) (e.drop (b + 1)) t2 0 e.length hr
        rw [hl] at this
        subst h1
        dsimp only
        rw [this]
        split
        · simp
        · split <;> simp
      unfold Rle
      rcases hk b hb c hc with h | h | h <;> rcases hk b' hb' c' hc' with h' | h' | h' <;> rw [h, h'] <;> dsimp only <;>
        exact ⟨by omega, by omega⟩
  · intro a ha b hb
    have := r1 a ha
    have := r2 b hb
    exact ⟨by omega, by omega⟩
  · split
    · exact .nil
    · exact List.pairwise_singleton _ _
  · intro a ha b hb
    have := r3 b hb
    rcases List.mem_append.1 ha with ha | ha
    · have := r1 a ha
      exact ⟨by omega, by omega⟩
    · have := r2 a ha
      exact ⟨by omega, by omega⟩
  · split
    · exact .nil
    · exact List.pairwise_singleton _ _
  · intro a ha b hb
    have := r4 b hb
    rcases List.mem_append.1 ha with ha | ha
    · rcases List.mem_append.1 ha with ha | ha
      · have := r1 a ha
        exact ⟨by omega, by omega⟩
      · have := r2 a ha
        exact ⟨by omega, by omega⟩
    · have := r3 a ha
      exact ⟨by omega, by omega⟩

/-! ### candidates and analyses -/

private theorem flatten_single (e : Str) (t : Option Str) (he : e ≠ []) (m n : Nat) : flattenWords [⟨e, t, [], none, 0, m, n⟩] = [(e, t)] := by
  simp [flattenWords, he]

private theorem analysis_of (d : State) (e : Str) (he : e ≠ []) (c : List LR) (h : Cand d e c) (h7 : (key d c).1 ≤ 7) :
    Analysis d e (key d c).1 (key d c).2 (flattenWords c) := by
  cases h with
  | single t ht hw =>
    rw [key_single, flatten_single _ _ he]
    by_cases h : t = tNoun
    · rw [if_pos h]; subst h; exact .noun hw
    · rw [if_neg h]
      rcases List.mem_cons.1 ht with h' | ht
      · exact absurd h' h
      · exact .single t ht hw
  | unknown h => rw [key_unknown, flatten_single _ _ he]; exact .unknown
  | pair l r t h1 h2 h3 h4 h5 h6 =>
    rw [key_pair d _ _ _ _ _ h3]
    have hf : flattenWords [⟨l, some tNoun, r, some t, 0, l.length, e.length⟩] = [(l, some tNoun), (r, some t)] := by simp [flattenWords, h2, h3]
    rw [hf]
    rcases List.mem_cons.1 h4 with rfl | h4
    · rw [if_neg (by decide), if_pos rfl]; exact .verb l r h1 h2 h3 h5 h6
    rcases List.mem_cons.1 h4 with rfl | h4
    · rw [if_neg (by decide), if_neg (by decide)]; exact .adjective l r h1 h2 h3 h5 h6
    rcases List.mem_cons.1 h4 with rfl | h4
    · rw [if_pos rfl]; exact .josa l r h1 h2 h3 h5 h6
    cases h4
  | nouns ws hg h2 =>
    rw [key_mkWords d _ _ h2, if_pos rfl] at h7 ⊢
    rw [flatten_mkWords _ _ _ (greedy_ne hg)]
    by_cases h : ws.length = 2
    · rw [if_pos h]
      match ws, h with
      | [a, b], _ => exact .nouns2 a b hg
    · rw [if_neg h] at h7; exact absurd h7 (by decide)
  | adverbs ws hg h2 =>
    rw [key_mkWords d _ _ h2, if_neg (show ¬ tAdv = tNoun by decide)] at h7 ⊢
    rw [flatten_mkWords _ _ _ (greedy_ne hg)]
    by_cases h : ws.length = 2
    · rw [if_pos h]
      match ws, h with
      | [a, b], _ => exact .adverbs2 a b hg
    · rw [if_neg h] at h7 ⊢
      by_cases h : ws.length = 3
      · rw [if_pos h]
        match ws, h with
        | [a, b, c], _ => exact .adverbs3 a b c hg
      · rw [if_neg h] at h7; exact absurd h7 (by decide)

private theorem cand_of (d : State) (e : Str) (rank tie : Nat) (out : List (Str × Option Str)) (h : Analysis d e rank tie out) :
    (∃ c, Cand d e c ∧ key d c = (rank, tie)) ∨ rank = 7 ∧ tie = 0 ∧ ∃ c, Cand d e c ∧ (key d c).1 ≤ 3 := by
  cases h with
  | noun hw => exact .inl ⟨_, .single tNoun (by decide) hw, by rw [key_single, if_pos rfl]⟩
  | josa l r h1 h2 h3 h4 h5 => exact .inl ⟨_, .pair l r tJosa h1 h2 h3 (by decide) h4 h5, by rw [key_pair d _ _ _ _ _ h3, if_pos rfl]⟩
  | verb l r h1 h2 h3 h4 h5 =>
    exact .inl ⟨_, .pair l r tVerb h1 h2 h3 (by decide) h4 h5, by rw [key_pair d _ _ _ _ _ h3, if_neg (by decide), if_pos rfl]⟩
  | adjective l r h1 h2 h3 h4 h5 =>
    exact .inl ⟨_, .pair l r tAdj h1 h2 h3 (by decide) h4 h5, by rw [key_pair d _ _ _ _ _ h3, if_neg (by decide), if_neg (by decide)]⟩
  | single t ht hw =>
    refine .inl ⟨_, .single t (List.mem_cons_of_mem _ ht) hw, ?_⟩
    rw [key_single, if_neg]
    rintro rfl
    revert ht
    decide
  | adverbs2 a b hg => exact .inl ⟨_, .adverbs _ hg (by simp), by rw [key_mkWords d _ _ (by simp), if_neg (by decide)]; rfl⟩
  | nouns2 a b hg => exact .inl ⟨_, .nouns _ hg (by simp), by rw [key_mkWords d _ _ (by simp), if_pos rfl]; rfl⟩
  | adverbs3 a b c hg => exact .inl ⟨_, .adverbs _ hg (by simp), by rw [key_mkWords d _ _ (by simp), if_neg (by decide)]; rfl⟩
  | unknown =>
    by_cases h : ∃ t ∈ [tNoun, tVerb, tAdj, tAdv, tExcl], d.wordIsTag e t = true
    · obtain ⟨t, ht, hw⟩ := h
      refine .inr ⟨rfl, rfl, _, .single t ht hw, ?_⟩
      rw [key_single]
      split <;> simp
    · refine .inl ⟨_, .unknown ?_, key_unknown d e _ _⟩
      intro t ht
      cases hw : d.wordIsTag e t with
      | false => rfl
      | true => exact absurd ⟨t, ht, hw⟩ h

private theorem sigma_lt {a b : Nat} (h : sigma a < sigma b) (ha : a ≤ 7) (hb : b ≤ 7) : b < a := by
  by_contra hn
  have hn : a ≤ b := Nat.le_of_not_lt hn
  interval_cases b <;> interval_cases a <;> simp only [sigma] at h <;> norm_num at h

private theorem sigma_le {a b : Nat} (h : sigma a ≤ sigma b) (ha : a ≤ 7) (hb : b ≤ 7) : b ≤ a ∨ b = 6 ∧ a = 5 := by
  by_contra hn
  rw [not_or] at hn
  obtain ⟨h1, h2⟩ := hn
  have h1 : a < b := Nat.lt_of_not_le h1
  interval_cases b <;> interval_cases a <;> simp only [sigma] at h <;> first | (norm_num at h; done) | omega

private theorem sigma_min {a : Nat} (ha : a ≤ 7) : -1/2 < sigma a := by
  interval_cases a <;> simp only [sigma] <;> norm_num

private theorem select_preferred (d : State) (hd : DReach d) (e : Str) (he : e ≠ []) (c : List LR)
    (h : selectBest (evaluateEojeol {}) (({dictionary := d} : EojeolMatcher).generate e) = some c) : Preferred d e (flattenWords c) := by
  obtain ⟨before, after, hl, hb, ha⟩ := (C40_select_best (evaluateEojeol {}) (({dictionary := d} : EojeolMatcher).generate e)).2 c h
  have hord := order_generate d hd e he
  have hmem : ∀ x, x ∈ before ++ c :: after ↔ Cand d e x := by intro x; rw [← hl]; exact mem_generate d hd e he x
  rw [hl] at hord
  have hc : Cand d e c := (hmem c).1 (by simp)
  have hle : ∀ x, Cand d e x → evaluateEojeol {} x ≤ evaluateEojeol {} c := by
    intro x hx
    rcases List.mem_append.1 ((hmem x).2 hx) with hx | hx
    · exact le_of_lt (hb x hx)
    · rcases List.mem_cons.1 hx with rfl | hx
      · exact le_refl _
      · exact ha x hx
  have hs := cand_score d e c hc
  -- the selected candidate has one of the ranks
  have h7 : (key d c).1 ≤ 7 := by
    by_contra h8
    have h8 : (key d c).1 = 8 := by have := hs.1; omega
    have hlow := hs.2.2 h8
    have : ∃ x, Cand d e x ∧ (key d x).1 ≤ 7 := by
      rcases cand_of d e 7 0 _ .unknown with ⟨x, hx, hk⟩ | ⟨_, _, x, hx, hk⟩
      · exact ⟨x, hx, by rw [hk]⟩
      · exact ⟨x, hx, by omega⟩
    obtain ⟨x, hx, hk⟩ := this
    have h1 := hle x hx
    rw [(cand_score d e x hx).2.1 (by omega)] at h1
    have := sigma_min hk
    linarith
  have hsc := hs.2.1 (by omega)
  have key_le : ∀ x, Cand d e x → (key d x).1 ≤ 7 → (key d c).1 < (key d x).1 ∨ (key d c).1 = (key d x).1 ∧ (key d c).2 ≤ (key d x).2 := by
    intro x hx hx7
    have hsx := (cand_score d e x hx).2.1 (by omega)
    rcases List.mem_append.1 ((hmem x).2 hx) with hxb | hxa
    · have := hb x hxb
      rw [hsx, hsc] at this
      exact .inl (sigma_lt this hx7 h7)
    · rcases List.mem_cons.1 hxa with rfl | hxa
      · exact .inr ⟨rfl, Nat.le_refl _⟩
      · have hR : Rle (key d c) (key d x) := by
          have := (List.pairwise_append.1 hord).2.1
          exact (List.pairwise_cons.1 this).1 x hxa
        have := ha x hxa
        rw [hsx, hsc] at this
        rcases sigma_le this hx7 h7 with h | h
        · rcases Nat.lt_or_eq_of_le h with h | h
          · exact .inl h
          · exact .inr ⟨h, hR.2 h⟩
        · exact absurd h hR.1
  refine ⟨_, _, analysis_of d e he c hc h7, ?_⟩
  intro rank' tie' out' h'
  have hr7 : rank' ≤ 7 := by cases h' <;> decide
  rcases cand_of d e rank' tie' out' h' with ⟨x, hx, hk⟩ | ⟨rfl, rfl, x, hx, hk⟩
  · have := key_le x hx (by rw [hk]; exact hr7)
    rw [hk] at this
    exact this
  · have := key_le x hx (by omega)
    left; omega

private theorem greedy_unique {d : State} {tag e : Str} {ws ws' : List Str} (h : Greedy d tag e ws) (h' : Greedy d tag e ws') : ws = ws' := by
  induction h generalizing ws' with
  | nil =>
    generalize hx : ([] : Str) = x at h'
    cases h' with
    | nil => rfl
    | cons w rest ws h1 => rw [eq_comm, List.append_eq_nil_iff] at hx; exact absurd hx.1 h1
  | cons w rest ws h1 h2 h3 h4 ih =>
    generalize hx : w ++ rest = x at h'
    cases h' with
    | nil => rw [List.append_eq_nil_iff] at hx; exact absurd hx.1 h1
    | cons w' rest' ws' k1 k2 k3 k4 =>
      have hw : w = w' := by
        rcases List.append_eq_append_iff.1 hx with ⟨a, ha, hb⟩ | ⟨a, ha, hb⟩
        · by_cases h0 : a = []
          · rw [ha, h0, List.append_nil]
          · rw [k3 w a ha h1 h0] at h2; cases h2
        · by_cases h0 : a = []
          · rw [ha, h0, List.append_nil]
          · rw [h3 w' a ha k1 h0] at k2; cases k2
      subst hw
      rw [List.append_cancel_left_eq] at hx
      subst hx
      rw [ih k4]

private theorem analysis_unique {d : State} {e : Str} {rank tie : Nat} {out out' : List (Str × Option Str)}
    (h : Analysis d e rank tie out) (h' : Analysis d e rank tie out') : out = out' := by
  have hcut : ∀ l r l' r' : Str, e = l ++ r → e = l' ++ r' → l.length = l'.length → l = l' ∧ r = r' := by
    intro l r l' r' h1 h2 h3
    exact List.append_inj (h1.symm.trans h2) h3
  have hidx : ∀ t t', d.wordIsTag e t = true → (Dict.keys d.pos).idxOf t = (Dict.keys d.pos).idxOf t' → t = t' := by
    intro t t' hw hi
    have : t ∈ Dict.keys d.pos := by
      unfold State.wordIsTag State.wordsOf at hw
      rw [decide_eq_true_iff] at hw
      rw [← Dict.isSome_get?_iff]
      split at hw
      · rename_i h; rw [h]; rfl
      · cases hw
    exact (List.idxOf_inj this).1 hi
  generalize hrk : rank = rank' at h'
  generalize htie : tie = tie' at h'
  cases h <;> cases h' <;> first | (exfalso; omega) | skip
  · rfl
  · rename_i l r h1 _ _ _ _ l' r' k1 _ _ _ _
    obtain ⟨rfl, rfl⟩ := hcut l r l' r' h1 k1 htie; rfl
  · rename_i l r h1 _ _ _ _ l' r' k1 _ _ _ _
    obtain ⟨rfl, rfl⟩ := hcut l r l' r' h1 k1 (by omega); rfl
  · rename_i l r h1 _ _ _ _ l' r' k1 _ _ _ _
    obtain ⟨rfl, rfl⟩ := hcut l r l' r' h1 k1 (by omega); rfl
  · rename_i t _ hw t' _ hw'
    rw [hidx t t' hw htie]
  · rename_i a b hg a' b' hg'
    have := greedy_unique hg hg'
    cases this; rfl
  · rename_i a b hg a' b' hg'
    have := greedy_unique hg hg'
    cases this; rfl
  · rename_i a b c hg a' b' c' hg'
    have := greedy_unique hg hg'
    cases this; rfl
  · rfl

/-- **C63** the tagger with `EojeolTemplateMatcher` and the default `SimpleEojeolEvaluator` outputs, for an eojeol, the analysis preferred by the order
    of `Analysis`, and no other. -/
theorem C63_preferred (d : State) (hd : DReach d) (e : Str) (he : e ≠ []) (out : List (Str × Option Str)) :
    tagEojeol (fun e => selectBest (evaluateEojeol {}) (({dictionary := d} : EojeolMatcher).generate e)) none e = .ok out ↔ Preferred d e out := by
  have hsome : ∃ c, selectBest (evaluateEojeol {}) (({dictionary := d} : EojeolMatcher).generate e) = some c := by
    cases hsel : selectBest (evaluateEojeol {}) (({dictionary := d} : EojeolMatcher).generate e) with
    | some c => exact ⟨c, rfl⟩
    | none =>
      have := (C40_select_best (evaluateEojeol {}) _).1.1 hsel
      exact absurd this (C40_candidates {dictionary := d} hd e).1
  obtain ⟨c, hc⟩ := hsome
  have hp := select_preferred d hd e he c hc
  have ht : tagEojeol (fun e => selectBest (evaluateEojeol {}) (({dictionary := d} : EojeolMatcher).generate e)) none e = .ok (flattenWords c) := by
    unfold tagEojeol
    dsimp only
    rw [hc]
    rfl
  rw [ht]
  constructor
  · intro h; rw [← Except.ok.inj h]; exact hp
  · intro h
    obtain ⟨r1, t1, a1, m1⟩ := hp
    obtain ⟨r2, t2, a2, m2⟩ := h
    have h1 := m1 _ _ _ a2
    have h2 := m2 _ _ _ a1
    have hr : r1 = r2 := by omega
    have htt : t1 = t2 := by omega
    subst hr htt
    rw [analysis_unique a1 a2]

private abbrev exTags : Dict Str (List Str) :=
  [("Noun".toList, ["사과".toList, "배".toList, "하늘".toList]), ("Josa".toList, ["는".toList, "하늘".toList]), ("Verb".toList, ["사과배".toList, "는".toList]),
   ("Adverb".toList, ["잘".toList])]

private def exState : State :=
  ⟨[("Noun".toList, 0), ("Josa".toList, 1), ("Verb".toList, 2), ("Adverb".toList, 3)],
   [.set ["사과".toList, "배".toList, "하늘".toList], .set ["는".toList, "하늘".toList], .set ["사과배".toList, "는".toList], .set ["잘".toList]], 3⟩

private theorem exReach : DReach exState :=
  .create exTags _ (by unfold Dict.WF; decide) rfl

/-- the hypotheses hold, and several analyses compete: 배하늘 is noun + josa or two nouns, and noun + josa is preferred -/
example : Preferred exState "배하늘".toList [("배".toList, some tNoun), ("하늘".toList, some tJosa)] :=
  (C63_preferred exState exReach _ (by decide) _).1 (by decide +kernel)

/-- 사과는 is noun + josa, or noun + verb -/
example : Preferred exState "사과는".toList [("사과".toList, some tNoun), ("는".toList, some tJosa)] :=
  (C63_preferred exState exReach _ (by decide) _).1 (by decide +kernel)

/-- 사과배 is a verb, or two nouns -/
example : Preferred exState "사과배".toList [("사과배".toList, some tVerb)] :=
  (C63_preferred exState exReach _ (by decide) _).1 (by decide +kernel)

/-- three nouns lose against the analysis as one unknown word -/
example : Preferred exState "배배배".toList [("배배배".toList, none)] :=
  (C63_preferred exState exReach _ (by decide) _).1 (by decide +kernel)

/-- three adverbs do not, four do -/
example : Preferred exState "잘잘잘".toList [("잘".toList, some tAdv), ("잘".toList, some tAdv), ("잘".toList, some tAdv)] ∧
    Preferred exState "잘잘잘잘".toList [("잘잘잘잘".toList, none)] :=
  ⟨(C63_preferred exState exReach _ (by decide) _).1 (by decide +kernel), (C63_preferred exState exReach _ (by decide) _).1 (by decide +kernel)⟩

end Props

import Verif.Proofs.NewsNoun2
import Verif.Proofs.TokNorm
import Mathlib.Tactic.SplitIfs
namespace NewsNoun
open Py Nested NewsNounSpec

section
variable (p : Params) (sents : List Str) (x : Ctx) (hx : x.t = trained p sents)
local notation "C" => corpus p sents
local notation "X" => x.sit (corpus p sents)

theorem passset_iff (r : Str) : passset.contains (r.take 2) = true ↔ String.ofList (r.take 2) ∈ passWords := by
  have h : ∀ (ws : List String) (t : Str), t ∈ ws.map String.toList ↔ String.ofList t ∈ ws := by
    intro ws t
    rw [List.mem_map]
    constructor
    · rintro ⟨w, hw, rfl⟩; simpa using hw
    · intro hw; exact ⟨_, hw, by simp⟩
  rw [List.contains_iff_mem]
  unfold passset
  rw [h]
  have hne : String.ofList (r.take 2) ≠ "으로의" := by
    intro he
    have := congrArg (fun s : String => s.toList.length) he
    simp at this; omega
  constructor
  · intro hm
    simp only [List.mem_cons, List.not_mem_nil, or_false] at hm
    simp only [passWords, List.mem_cons, List.not_mem_nil, or_false]
    rcases hm with hm | hm | hm | hm | hm | hm | hm | hm | hm | hm | hm | hm | hm | hm | hm | hm | hm | hm | hm | hm | hm | hm | hm | hm | hm | hm | hm | hm | hm | hm | hm | hm | hm | hm | hm | hm | hm | hm | hm | hm | hm | hm <;> first | exact absurd hm hne | simp only [hm, true_or, or_true]
  · intro hm
    simp only [passWords, List.mem_cons, List.not_mem_nil, or_false] at hm
    simp only [List.mem_cons, List.not_mem_nil, or_false]
    rcases hm with hm | hm | hm | hm | hm | hm | hm | hm | hm | hm | hm | hm | hm | hm | hm | hm | hm | hm | hm | hm | hm | hm | hm | hm | hm | hm | hm | hm | hm | hm | hm | hm | hm | hm | hm | hm | hm | hm | hm | hm | hm <;> simp only [hm, true_or, or_true]

include hx

theorem unijosa_iff (hs : ∀ w s, Dict.get? x.scores w = some s → s = predict x.rScores x.t w) (l : Str) :
    x.unijosaFilter l = true ↔ ¬ FewJosa X l := by
  unfold Ctx.unijosaFilter FewJosa
  have hS : (x.sit C).S l ↔ (Dict.get? x.scores l).isSome = true := (Dict.isSome_get?_iff _ _).symm
  cases hg : Dict.get? x.scores l with
  | none =>
    simp only [true_iff]
    rintro ⟨h, _⟩
    rw [hS, hg] at h; simp at h
  | some s =>
    have hsp := hs l s hg
    rw [hx, predict_eq] at hsp
    have hdiff : different C l (fun r => decide (∃ s ∈ (x.sit C).rs r, 0 < s)) = different C l (fun r => decide (0 < Dict.getD x.rScores r 0)) := by
      congr 1
      funext r
      rw [Bool.eq_iff_iff, decide_eq_true_iff, decide_eq_true_iff]
      show (∃ s ∈ Dict.get? x.rScores r, 0 < s) ↔ 0 < (Dict.get? x.rScores r).getD 0
      cases Dict.get? x.rScores r <;> simp
    have hc : (x.sit C).c = C := rfl
    rw [hc, hdiff]
    have hSt : (x.sit C).S l := hS.2 (by rw [hg]; rfl)
    simp only
    have hcond : (s.frequency ≤ 10 ∧ s.nPositiveFeature ≤ 1) ↔ (freq C l ≤ 10 ∧ different C l (fun r => decide (0 < Dict.getD x.rScores r 0)) ≤ 1) := by
      rw [hsp]; simp only; constructor
      · rintro ⟨h1, h2⟩; exact ⟨by exact_mod_cast h1, h2⟩
      · rintro ⟨h1, h2⟩; exact ⟨by exact_mod_cast h1, h2⟩
    by_cases hcd : s.frequency ≤ 10 ∧ s.nPositiveFeature ≤ 1
    · rw [if_pos hcd]
      have hrow : row x.t.lrgraph l = [] ↔ freq C l = 0 := by rw [hx]; exact row_nil_iff p sents l
      by_cases h0 : freq C l = 0
      · rw [if_pos (hrow.2 h0)]
        simp only [Bool.false_eq_true, false_iff, not_not]
        refine ⟨hSt, (hcond.1 hcd).1, (hcond.1 hcd).2, ?_⟩
        have hn : rests C l = [] := List.eq_nil_of_length_eq_zero h0
        unfold num; rw [hn]; simp
      · rw [if_neg (fun h => h0 (hrow.1 h))]
        rw [rownum p sents x hx l (fun r => decide (r ≠ []) && (passset.contains (r.take 2) || x.isNJ r))
            (fun r => r ≠ [] ∧ (String.ofList (r.take 2) ∈ passWords ∨ NJ X r))
            (by intro r; rw [Bool.and_eq_true, Bool.or_eq_true, decide_eq_true_eq, passset_iff, isNJ_iff p sents x]),
          rownum p sents x hx l (fun r => decide (r ≠ [])) (· ≠ []) (by intro r; rw [decide_eq_true_eq]), decide_eq_true_eq]
        have hle : num C l (fun r => r ≠ [] ∧ (String.ofList (r.take 2) ∈ passWords ∨ NJ X r)) ≤ num C l (· ≠ []) := by
          unfold num
          apply List.countP_mono_left
          intro r _ h
          simp only [decide_eq_true_eq] at h ⊢
          exact h.1
        generalize num C l (fun r => r ≠ [] ∧ (String.ofList (r.take 2) ∈ passWords ∨ NJ X r)) = a at hle ⊢
        generalize num C l (· ≠ []) = b at hle ⊢
        constructor
        · rintro h ⟨_, _, _, h4⟩
          by_cases hb : b = 0
          · rw [if_neg (by simp [hb])] at h; norm_num at h
          · rw [if_pos (by exact_mod_cast hb)] at h
            push_cast at h
            have hpos : (0 : Rat) < b := by exact_mod_cast Nat.pos_of_ne_zero hb
            rw [gt_iff_lt, lt_div_iff₀ hpos] at h
            have : (2 * a : Rat) ≤ b := by exact_mod_cast h4
            linarith
        · intro h
          have h4 : b < 2 * a := by
            by_contra hh
            exact h ⟨hSt, (hcond.1 hcd).1, (hcond.1 hcd).2, by omega⟩
          have hb : b ≠ 0 := by omega
          rw [if_pos (by exact_mod_cast hb)]
          push_cast
          have hpos : (0 : Rat) < b := by exact_mod_cast Nat.pos_of_ne_zero hb
          rw [gt_iff_lt, lt_div_iff₀ hpos]
          have : (b : Rat) < 2 * a := by exact_mod_cast h4
          linarith
    · rw [if_neg hcd]
      simp only [true_iff]
      rintro ⟨_, h2, h3, _⟩
      exact hcd (hcond.2 ⟨h2, h3⟩)

end

private theorem h_toNat : 'ㅎ'.toNat = 0x314E := by decide
private theorem h_at : Spec.initialJamo[18]? = some 0x314E := by decide

theorem beginsWithH_char (c : Char) :
    (match Hangle.decompose c with | .ok (some d) => decide (d.1 = 'ㅎ') | _ => false) = true ↔ (c = 'ㅎ' ∨ 0xD558 ≤ c.toNat ∧ c.toNat ≤ 0xD7A3) := by
  have hne : ∀ {c : Char}, c.toNat ≠ 0x314E → c ≠ 'ㅎ' := by rintro c h rfl; exact h h_toNat
  by_cases h1 : Spec.Syllable c
  · obtain ⟨x, y, z, i, j, k, hd, hJ, hc⟩ := Hangle.decompose_syllable h1
    rw [hd]
    simp only [decide_eq_true_eq]
    have hi : i < 19 := by
      have := (List.getElem?_eq_some_iff.1 hJ.1).1
      rwa [Hangle.initial_length] at this
    have hj : j < 21 := by
      have := (List.getElem?_eq_some_iff.1 hJ.2.1).1
      rwa [Hangle.vowel_length] at this
    have hk : k < 28 := by
      have := (List.getElem?_eq_some_iff.1 hJ.2.2).1
      rwa [Hangle.final_length] at this
    have hx : x = 'ㅎ' ↔ i = 18 := by
      constructor
      · rintro rfl
        have h2 := hJ.1
        rw [h_toNat] at h2
        exact Hangle.nodup_getElem?_inj Hangle.initial_nodup h2 h_at
      · rintro rfl
        have h2 := hJ.1
        rw [h_at] at h2
        apply char_ext
        rw [h_toNat]; exact (Option.some.inj h2).symm
    rw [hx]
    obtain ⟨hl, hu⟩ := h1
    constructor
    · rintro rfl; right; omega
    · rintro (h | h)
      · subst h; rw [h_toNat] at hl; omega
      · omega
  · by_cases h2 : Spec.Consonant c
    · rw [Hangle.decompose_consonant h2]
      simp only [decide_eq_true_eq]
      obtain ⟨hl, hu⟩ := h2
      constructor
      · exact Or.inl
      · rintro (h | h)
        · exact h
        · omega
    · have hn : ¬ (c = 'ㅎ' ∨ 0xD558 ≤ c.toNat ∧ c.toNat ≤ 0xD7A3) := by
        rintro (rfl | h)
        · exact h2 (by decide)
        · exact h1 ⟨by omega, by omega⟩
      by_cases h3 : Spec.Vowel c
      · rw [Hangle.decompose_vowel h3]
        simp only [decide_eq_true_eq]
        exact ⟨fun h => absurd h (by decide), fun h => absurd h hn⟩
      · rw [Hangle.decompose_nonkorean (by rintro (h | h | h) <;> contradiction)]
        simp only [Bool.false_eq_true, false_iff]; exact hn

theorem beginsWithH_iff (r : Str) : beginsWithH r = true ↔ StartsWithH r := by
  unfold StartsWithH
  cases r with
  | nil => simp [beginsWithH]
  | cons c t =>
    have h0 : beginsWithH (c :: t) = (match Hangle.decompose c with | .ok (some d) => decide (d.1 = 'ㅎ') | _ => false) := rfl
    rw [h0, beginsWithH_char]
    constructor
    · intro h; exact ⟨c, t, rfl, h⟩
    · rintro ⟨ch, t', he, h⟩
      cases he; exact h

theorem last2_iff (l : Str) (w : String) (hw : w.toList.length = 2) : last2 l = w.toList ↔ w.toList <:+ l := by
  unfold last2
  constructor
  · intro h; rw [← h]; exact List.drop_suffix _ _
  · rintro ⟨t, rfl⟩
    rw [List.length_append, hw]
    simp

theorem last_iff (l : Str) (c : Char) : l.getLast? = some c ↔ [c] <:+ l := by
  rw [List.getLast?_eq_some_iff]
  constructor
  · rintro ⟨t, rfl⟩; exact ⟨t, rfl⟩
  · rintro ⟨t, rfl⟩; exact ⟨t, rfl⟩

section
variable (p : Params) (sents : List Str) (x : Ctx) (hx : x.t = trained p sents)
local notation "C" => corpus p sents
local notation "X" => x.sit (corpus p sents)
include hx

theorem dangHada_iff (l : Str) (hl : l ≠ []) : x.dangHadaFilter l = true ↔ ¬ DangHada X l := by
  unfold Ctx.dangHadaFilter DangHada
  have h1 : (¬ (l.getLast? = some '당') ∧ x.known l.dropLast = true) ↔ ∃ a ch, l = a ++ [ch] ∧ ch ≠ '당' ∧ Known X a := by
    rw [known_iff p sents x]
    constructor
    · rintro ⟨h2, h3⟩
      refine ⟨l.dropLast, l.getLast hl, (List.dropLast_append_getLast hl).symm, ?_, h3⟩
      rintro he
      apply h2; rw [List.getLast?_eq_some_getLast hl, he]
    · rintro ⟨a, ch, rfl, h2, h3⟩
      simp [h2, h3]
  by_cases hc : ¬ (l.getLast? = some '당') ∧ x.known l.dropLast = true
  · rw [if_pos hc]
    simp only [true_iff]
    rintro ⟨h, _⟩; exact h (h1.1 hc)
  · rw [if_neg hc]
    simp only
    rw [rownum p sents x hx l beginsWithH StartsWithH beginsWithH_iff]
    have hb : (((row x.t.lrgraph l).filter (fun f => decide (f.2 ≠ 0))).map (·.2)).sum = ((freq C l : Nat) : Int) := by
      rw [← rowsum p sents x hx l]
      induction row x.t.lrgraph l with
      | nil => rfl
      | cons e d ih =>
        rw [List.filter_cons, List.map_cons, List.sum_cons, ← ih]
        by_cases h : e.2 = 0 <;> simp [h]
    rw [hb]
    show _ ↔ ¬ (_ ∧ 1/2 ≤ share C l _)
    have hn : ¬ ∃ a ch, l = a ++ [ch] ∧ ch ≠ '당' ∧ Known X a := fun h => hc (h1.2 h)
    by_cases h0 : freq C l = 0
    · rw [if_pos (by omega)]
      simp only [true_iff]
      rintro ⟨_, h⟩
      unfold share at h; rw [h0] at h; norm_num at h
    · rw [if_neg (by omega), decide_eq_true_eq]
      unfold share
      push_cast
      rw [not_and, not_le]
      exact ⟨fun h _ => h, fun h => h hn⟩

theorem propR_eq (l r : Str) : propR x.t l r = share C l (· = r) := by
  unfold propR share
  simp only
  rw [rowsum p sents x hx]
  by_cases h0 : freq C l = 0
  · rw [if_pos (by exact_mod_cast h0), h0]; simp
  · rw [if_neg (by exact_mod_cast h0)]
    have h1 : Dict.getD (row x.t.lrgraph l) r 0 = ((num C l (· = r) : Nat) : Int) := by
      rw [hx, ← countP_eq_num C l (fun a => decide (a = r)) _ (by simp)]
      show (Dict.get? (row (buildLR (entries p (countEojeols p sents))) l) r).getD 0 = _
      rw [get?_row]
      have hcnt : (rests C l).count r = (rests C l).countP (fun a => decide (a = r)) := by
        unfold List.count; apply List.countP_congr; simp
      split
      · simp [hcnt]
      · rename_i hr
        rw [← hcnt, List.count_eq_zero_of_not_mem hr]; rfl
    rw [h1]; push_cast; rfl

omit hx in
theorem share_cons (l : Str) (w : String) (ws : List String) (h : w ∉ ws) :
    share C l (OneOf (w :: ws)) = share C l (· = w.toList) + share C l (OneOf ws) := by
  unfold share
  rw [← add_div]
  congr 1
  have : num C l (OneOf (w :: ws)) = num C l (· = w.toList) + num C l (OneOf ws) := by
    unfold num
    induction rests C l with
    | nil => rfl
    | cons r rs ih =>
      rw [List.countP_cons, List.countP_cons, List.countP_cons, ih]
      have h1 : OneOf (w :: ws) r ↔ r = w.toList ∨ OneOf ws r := by
        unfold OneOf; simp
      by_cases ha : r = w.toList
      · have hb : ¬ OneOf ws r := by
          rintro ⟨w', hw', he⟩
          have : w' = w := String.ext (he.symm.trans ha)
          exact h (this ▸ hw')
        have hA := h1.2 (Or.inl ha)
        rw [if_pos (by simpa using hA), if_pos (by simpa using ha), if_neg (by simpa using hb)]; omega
      · by_cases hb : OneOf ws r
        · have hA := h1.2 (Or.inr hb)
          rw [if_pos (by simpa using hA), if_neg (by simpa using ha), if_pos (by simpa using hb)]; omega
        · have hA : ¬ OneOf (w :: ws) r := fun h => (h1.1 h).elim ha hb
          rw [if_neg (by simpa using hA), if_neg (by simpa using ha), if_neg (by simpa using hb)]; omega
  rw [this]; push_cast; rfl

omit hx in
theorem share_nil (l : Str) : share C l (OneOf []) = 0 := by
  have : num C l (OneOf []) = 0 := by
    unfold num OneOf; simp
  unfold share; rw [this]; simp

theorem droprate_eq (l : Str) : droprate x.t l = (freq C l : Rat) / freq C l.dropLast := by
  unfold droprate
  rw [hx, get?_lcount, lFrequency_eq]
  by_cases h0 : freq C l.dropLast = 0
  · rw [if_pos h0, h0]; simp
  · rw [if_neg h0]; simp

theorem suffix_iff (l : Str) (hl : l ≠ []) : x.suffixFilter l = true ↔ ¬ BadSuffix X l := by
  unfold Ctx.suffixFilter BadSuffix
  simp only
  have hv : x.verbs.contains l = true ↔ (x.sit C).verb l := by simp [Ctx.sit]
  have e1 : last2 l ∈ ["갔다", "이는", "겠지", "보는"].map String.toList ↔ EndsIn l ["갔다", "이는", "겠지", "보는"] := by
    unfold EndsIn
    simp only [List.map_cons, List.map_nil, List.mem_cons, List.not_mem_nil, or_false, exists_eq_or_imp, exists_eq_left]
    rw [last2_iff l _ rfl, last2_iff l _ rfl, last2_iff l _ rfl, last2_iff l _ rfl]
  have one : ∀ (s : String) (c : Char), s.toList = [c] → (l.getLast? = some c ↔ EndsIn l [s]) := by
    intro s c hs
    unfold EndsIn
    simp only [List.mem_cons, List.not_mem_nil, or_false, exists_eq_left]
    rw [last_iff, hs]
  have e2 := one "으" '으' rfl
  have e3 := one "지" '지' rfl
  have e4 := one "없" '없' rfl
  have s1 : (propR x.t l "로".toList + propR x.t l "로써".toList + propR x.t l "로만".toList) + propR x.t l "로의".toList
      = share C l (OneOf ["로", "로써", "로만", "로의"]) := by
    rw [share_cons _ _ _ _ _ (by decide), share_cons _ _ _ _ _ (by decide), share_cons _ _ _ _ _ (by decide), share_cons _ _ _ _ _ (by decide), share_nil]
    rw [propR_eq p sents x hx, propR_eq p sents x hx, propR_eq p sents x hx, propR_eq p sents x hx]; ring
  have s2 : propR x.t l "만".toList = share C l (OneOf ["만"]) := by
    rw [share_cons _ _ _ _ _ (by decide), share_nil, propR_eq p sents x hx]; ring
  have s3 : (propR x.t l "는".toList + propR x.t l "이".toList + propR x.t l "다".toList) + propR x.t l "었다".toList
      = share C l (OneOf ["는", "이", "다", "었다"]) := by
    rw [share_cons _ _ _ _ _ (by decide), share_cons _ _ _ _ _ (by decide), share_cons _ _ _ _ _ (by decide), share_cons _ _ _ _ _ (by decide), share_nil]
    rw [propR_eq p sents x hx, propR_eq p sents x hx, propR_eq p sents x hx, propR_eq p sents x hx]; ring
  have e5 : ((l.getLast? = some '인' ∨ l.getLast? = some '은' ∨ l.getLast? = some '의' ∨ l.getLast? = some '와' ∨ l.getLast? = some '과') ∨
      last2 l ∈ ["들이", "들은", "들도", "들을"].map String.toList) ↔ EndsIn l ["인", "은", "의", "와", "과", "들이", "들은", "들도", "들을"] := by
    unfold EndsIn
    simp only [List.map_cons, List.map_nil, List.mem_cons, List.not_mem_nil, or_false, exists_eq_or_imp, exists_eq_left]
    rw [last2_iff l _ rfl, last2_iff l _ rfl, last2_iff l _ rfl, last2_iff l _ rfl, last_iff, last_iff, last_iff, last_iff, last_iff]
    simp only [or_assoc]
    rfl
  have e6 : (last2 l = "으로".toList ∧ (l.length = 3 ∨ (Dict.has x.nouns (l.take (l.length - 2)) || Dict.has x.post (l.take (l.length - 2))) = true)) ↔
      ∃ a, l = a ++ "으로".toList ∧ (a.length = 1 ∨ (x.sit C).T a ∨ (x.sit C).A a) := by
    rw [last2_iff l _ rfl, Bool.or_eq_true, Dict.isSome_get?_iff, Dict.isSome_get?_iff]
    constructor
    · rintro ⟨⟨t, rfl⟩, h⟩
      have h2 : ("으로".toList).length = 2 := rfl
      have ht : (t ++ "으로".toList).take ((t ++ "으로".toList).length - 2) = t := by rw [List.length_append, h2]; simp
      rw [ht] at h
      refine ⟨t, rfl, ?_⟩
      rcases h with h | h
      · left; rw [List.length_append, h2] at h; omega
      · right; exact h
    · rintro ⟨t, rfl, h⟩
      have h2 : ("으로".toList).length = 2 := rfl
      have ht : (t ++ "으로".toList).take ((t ++ "으로".toList).length - 2) = t := by rw [List.length_append, h2]; simp
      rw [ht]
      refine ⟨⟨t, rfl⟩, ?_⟩
      rcases h with h | h
      · left; rw [List.length_append, h2]; omega
      · right; exact h
  rw [s1, s2, s3, droprate_eq p sents x hx]
  rw [← hv, ← e1, ← e2, ← e3, ← e4, ← e5, ← e6]
  have hc : (x.sit C).c = C := rfl
  rw [hc]
  generalize (freq C l : Rat) / freq C l.dropLast = q
  generalize share C l (OneOf ["로", "로써", "로만", "로의"]) = q1
  generalize share C l (OneOf ["만"]) = q2
  generalize share C l (OneOf ["는", "이", "다", "었다"]) = q3
  have key : ∀ (v : Bool) (a b c d f g h : Prop) [Decidable a] [Decidable b] [Decidable c] [Decidable d] [Decidable f] [Decidable g] [Decidable h] (k k' : Prop),
      (f ↔ k ∧ q < 8/10) → (g ↔ k' ∧ q < 8/10) →
      ((if v = true then false else if a then false else if b then false else if c then false else if d then false else
        if f then false else if g then false else if h then false else true) = true ↔
      ¬ (v = true ∨ a ∨ b ∨ c ∨ d ∨ ((k ∨ k') ∧ q < 8/10) ∨ h)) := by
    intro v a b c d f g h _ _ _ _ _ _ _ k k' hf hg
    rw [or_and_right, ← hf, ← hg]
    split_ifs <;> simp_all
  exact key _ _ _ _ _ _ _ _ _ _ Iff.rfl Iff.rfl

end
end NewsNoun

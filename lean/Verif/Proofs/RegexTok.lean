import Verif.Model.RegexTokenizer
import Verif.Proofs.Text
/-! Lemmas for the regex tokenizer. -/
namespace RegexTok
open Py Spec

/-- drop the whitespace -/
def ink (s : Str) : Str := s.filter (fun c => !isSpace c)

@[simp] theorem ink_append (s t : Str) : ink (s ++ t) = ink s ++ ink t := List.filter_append _ _
@[simp] theorem ink_blank (s : Str) : ink (' ' :: s) = ink s := by simp [ink]
theorem ink_cons (c : Char) (s t : Str) (h : ink s = ink t) : ink (c :: s) = ink (c :: t) := by
  have : ∀ u, ink (c :: u) = ink [c] ++ ink u := fun u => ink_append [c] u
  rw [this s, this t, h]

theorem rescan_ink (s : Str) : ∀ (found : Str) (founds : List Str) (skip : Nat), found ≠ [] → (∀ f ∈ founds, f ≠ []) →
    ink (rescan found founds skip s) = ink (s.drop skip) := by
  induction s with
  | nil => intro f fs skip _ _; cases skip <;> simp [rescan]
  | cons c cs ih =>
    intro f fs skip hf hfs
    cases skip with
    | succ n => simpa [rescan] using ih f fs n hf hfs
    | zero =>
      simp only [rescan, List.drop_zero]
      split
      · rename_i heq
        have hpos : 0 < f.length := List.length_pos_iff.2 hf
        have hcs : c :: cs = f ++ (c :: cs).drop f.length := by
          have := List.take_append_drop f.length (c :: cs)
          rw [heq] at this; exact this.symm
        have hdrop : (c :: cs).drop f.length = cs.drop (f.length - 1) := by
          obtain ⟨n, hn⟩ : ∃ n, f.length = n + 1 := ⟨f.length - 1, by omega⟩
          rw [hn]; simp
        rw [ink_blank, ink_append, ink_blank]
        have e : ink (c :: cs) = ink f ++ ink ((c :: cs).drop f.length) := by rw [← ink_append, ← hcs]
        rw [e]
        congr 1
        cases fs with
        | nil => rfl
        | cons g gs =>
          simp only
          rw [ih g gs _ (hfs g (by simp)) (fun x hx => hfs x (by simp [hx])), hdrop]
      · exact ink_cons c _ _ (by simpa using ih f fs 0 hf hfs)

/-- a pattern never matches the empty string and never reads beyond the text -/
def Proper (m : Str → Option Nat) : Prop := ∀ s k, m s = some k → 0 < k ∧ k ≤ s.length

theorem findAll_ne_nil (m : Str → Option Nat) (hm : Proper m) (s : Str) (skip : Nat) : ∀ f ∈ findAll m skip s, f ≠ [] := by
  induction s generalizing skip with
  | nil => simp [findAll]
  | cons c cs ih =>
    cases skip with
    | succ n => simpa [findAll] using ih n
    | zero =>
      simp only [findAll]
      split
      · rename_i k hk
        have := hm _ _ hk
        intro f hf
        rcases List.mem_cons.1 hf with rfl | hf
        · intro h0
          have : ((c :: cs).take k).length = 0 := by rw [h0]; rfl
          simp at this; omega
        · exact ih _ f hf
      · exact ih 0

theorem applyPattern_ink (m : Str → Option Nat) (hm : Proper m) (s : Str) : ink (applyPattern m s) = ink s := by
  unfold applyPattern
  have h := findAll_ne_nil m hm s 0
  cases hf : findAll m 0 s with
  | nil => rfl
  | cons f fs =>
    rw [hf] at h
    simpa using rescan_ink s f fs 0 (h f (by simp)) (fun x hx => h x (by simp [hx]))

theorem runLength_le (p : Char → Bool) (s : Str) : runLength p s ≤ s.length := by
  unfold runLength; exact (List.takeWhile_prefix p).length_le

theorem proper_run (p : Char → Bool) : Proper (matchRun p) := by
  intro s k h
  unfold matchRun at h
  split at h
  · cases h
  · cases h; exact ⟨by omega, runLength_le p s⟩

theorem digits_le (isDigit : Char → Bool) (s : Str) (k : Nat) (h : matchDigits isDigit s = some k) : 0 < k ∧ k ≤ s.length := by
  unfold matchDigits at h
  have h1 := runLength_le isDigit s
  have h2 : (s.drop (runLength isDigit s)).length = s.length - runLength isDigit s := List.length_drop
  simp only at h
  split at h
  · rename_i rest hd
    rw [hd, List.length_cons] at h2
    have := runLength_le isDigit rest
    split at h
    · simp only [Option.some.injEq] at h; omega
    · split at h
      · simp only [Option.some.injEq] at h; omega
      · cases h
  · split at h
    · simp only [Option.some.injEq] at h; omega
    · cases h

theorem proper_number (isDigit : Char → Bool) : Proper (matchNumber isDigit) := by
  intro s k h
  cases s with
  | nil => cases h
  | cons c rest =>
    simp only [matchNumber] at h
    split at h
    · simp only [Option.map_eq_some_iff] at h
      obtain ⟨j, hj, rfl⟩ := h
      have := digits_le isDigit rest j hj
      simp only [List.length_cons]; omega
    · exact digits_le isDigit _ k h

theorem lastS_lt {w : Str} {k : Nat} (h : lastS w = some k) : k < w.length := by
  have := List.mem_of_getLast? h
  simp at this; exact this.1

theorem englishBack_le (s : Str) (m : Nat) (hm : m ≠ 0) (h1 : m ≤ s.length) : 0 < englishBack s m ∧ englishBack s m ≤ s.length := by
  unfold englishBack
  have h2 : (s.drop m).length = s.length - m := List.length_drop
  have h3 := runLength_le (fun c => c = ']') (s.drop m)
  split
  · rename_i i hi
    have := lastS_lt hi
    rw [List.length_take, Nat.min_eq_left h1] at this
    split <;> omega
  · omega

theorem proper_english : Proper matchEnglish := by
  intro s k h
  unfold matchEnglish at h
  have h1 := runLength_le isLatin s
  have h2 : (s.drop (runLength isLatin s)).length = s.length - runLength isLatin s := List.length_drop
  simp only at h
  split at h
  · cases h
  · rename_i hm
    have hback := englishBack_le s _ hm h1
    split at h
    · rename_i q rest hd
      have h4 := runLength_le (fun c => c = ']') rest
      rw [hd] at h2
      simp only [List.length_cons] at h2
      split at h
      · simp only [Option.some.injEq] at h; omega
      · simp only [Option.some.injEq] at h; rw [← h]; exact hback
    · simp only [Option.some.injEq] at h; rw [← h]; exact hback

theorem proper_patterns (isDigit : Char → Bool) : ∀ m ∈ patterns isDigit, Proper m := by
  intro m hm
  simp only [patterns, List.mem_cons, List.not_mem_nil, or_false] at hm
  rcases hm with rfl | rfl | rfl | rfl | rfl
  · exact proper_number isDigit
  · exact proper_run _
  · exact proper_run _
  · exact proper_run _
  · exact proper_english

/-! ### what a pattern does to the text -/

/-- every match gets a blank on both sides -/
def spaced (m : Str → Option Nat) : Nat → Str → Str
  | _, [] => []
  | 0, c :: cs =>
    match m (c :: cs) with
    | some k => ' ' :: ((c :: cs).take k ++ ' ' :: spaced m (k - 1) cs)
    | none => c :: spaced m 0 cs
  | skip + 1, _ :: cs => spaced m skip cs

/-- whatever text starts with something the pattern has found, the pattern matches there -/
def Stable (m : Str → Option Nat) : Prop := ∀ u v k, m v = some k → v.take k <+: u → m u ≠ none

theorem spaced_of_no_match (m : Str → Option Nat) (s : Str) (skip : Nat) (h : findAll m skip s = []) : spaced m skip s = s.drop skip := by
  induction s generalizing skip with
  | nil => simp [spaced]
  | cons c cs ih =>
    cases skip with
    | succ n => simpa [findAll, spaced] using ih n h
    | zero =>
      simp only [findAll] at h
      simp only [spaced]
      cases hm : m (c :: cs) with
      | some k => rw [hm] at h; cases h
      | none => rw [hm] at h; simpa using ih 0 h

theorem rescan_eq_spaced (m : Str → Option Nat) (hp : Proper m) (hs : Stable m) (s : Str) :
    ∀ (skip : Nat) (f : Str) (fs : List Str), findAll m skip s = f :: fs → rescan f fs skip s = spaced m skip s := by
  induction s with
  | nil => intro skip f fs h; simp [findAll] at h
  | cons c cs ih =>
    intro skip f fs h
    cases skip with
    | succ n => simp only [rescan, spaced]; exact ih n f fs (by simpa [findAll] using h)
    | zero =>
      simp only [findAll] at h
      simp only [spaced]
      cases hm : m (c :: cs) with
      | some k =>
        rw [hm] at h
        simp only [List.cons.injEq] at h
        obtain ⟨rfl, h⟩ := h
        have hk := hp _ _ hm
        have hlen : ((c :: cs).take k).length = k := by rw [List.length_take]; omega
        simp only [rescan]
        rw [if_pos (by rw [hlen])]
        congr 1; congr 1; congr 1
        cases fs with
        | nil =>
          simp only [hlen]
          rw [spaced_of_no_match m cs _ h]
          obtain ⟨j, rfl⟩ : ∃ j, k = j + 1 := ⟨k - 1, by omega⟩
          simp
        | cons g gs =>
          simp only [hlen]
          exact ih _ g gs h
      | none =>
        rw [hm] at h
        simp only [rescan]
        rw [if_neg]
        · rw [ih 0 f fs h]
        · intro heq
          -- `f` was found somewhere, so the pattern would match here
          have : ∃ v k, m v = some k ∧ v.take k = f := by
            have key : ∀ (t : Str) (skip : Nat), ∀ g ∈ findAll m skip t, ∃ v k, m v = some k ∧ v.take k = g := by
              intro t
              induction t with
              | nil => intro _ g hg; simp [findAll] at hg
              | cons d ds ih2 =>
                intro skip g hg
                cases skip with
                | succ n => exact ih2 n g (by simpa [findAll] using hg)
                | zero =>
                  simp only [findAll] at hg
                  split at hg
                  · rename_i j hj
                    rcases List.mem_cons.1 hg with rfl | hg
                    · exact ⟨_, _, hj, rfl⟩
                    · exact ih2 _ g hg
                  · exact ih2 0 g hg
            exact key cs 0 f (by simp only at h; rw [h]; simp)
          obtain ⟨v, k, h1, h2⟩ := this
          exact hs (c :: cs) v k h1 (by rw [h2, ← heq]; exact List.take_prefix _ _) hm

theorem applyPattern_eq_spaced (m : Str → Option Nat) (hp : Proper m) (hs : Stable m) (s : Str) :
    applyPattern m s = spaced m 0 s := by
  unfold applyPattern
  cases hf : findAll m 0 s with
  | nil => rw [spaced_of_no_match m s 0 hf]; simp
  | cons f fs => exact rescan_eq_spaced m hp hs s 0 f fs hf

theorem head_of_runLength {p : Char → Bool} {s : Str} (h : runLength p s ≠ 0) : ∃ c cs, s = c :: cs ∧ p c = true := by
  cases s with
  | nil => simp [runLength] at h
  | cons c cs =>
    refine ⟨c, cs, rfl, ?_⟩
    cases hp : p c
    · simp [runLength, hp] at h
    · rfl

theorem runLength_pos {p : Char → Bool} {c : Char} {cs : Str} (h : p c = true) : runLength p (c :: cs) ≠ 0 := by
  simp [runLength, h]

theorem stable_run (p : Char → Bool) : Stable (matchRun p) := by
  intro u v k hv hpre
  unfold matchRun at hv
  split at hv
  · cases hv
  · rename_i hr
    cases hv
    obtain ⟨c, cs, rfl, hc⟩ := head_of_runLength hr
    obtain ⟨t, ht⟩ := hpre
    obtain ⟨j, hj⟩ : ∃ j, runLength p (c :: cs) = j + 1 := ⟨runLength p (c :: cs) - 1, by omega⟩
    rw [hj, List.take_succ_cons, List.cons_append] at ht
    subst ht
    simp [matchRun, runLength_pos hc]

theorem stable_english : Stable matchEnglish := by
  intro u v k hv hpre
  have hv' : runLength isLatin v ≠ 0 := by
    intro h0; simp [matchEnglish, h0] at hv
  have hk := (proper_english v k hv).1
  obtain ⟨c, cs, rfl, hc⟩ := head_of_runLength hv'
  obtain ⟨t, ht⟩ := hpre
  obtain ⟨j, rfl⟩ : ∃ j, k = j + 1 := ⟨k - 1, by omega⟩
  rw [List.take_succ_cons, List.cons_append] at ht
  subst ht
  have := runLength_pos (cs := cs.take j ++ t) hc
  unfold matchEnglish
  simp only [this, if_false]
  split
  · split <;> simp
  · simp

end RegexTok

import Verif.Model.TokNormalizer
import Verif.Spec.TokNorm
import Verif.Proofs.Repeat
import Verif.Proofs.Conjugation
import Mathlib.Tactic.Set
import Mathlib.Tactic.ByContra
/-! Lemmas about `soynlp.tokenizer.normalize`. -/
namespace TokNorm
open Py Hangle Spec

theorem copiesOf_succ (m : Nat) (u : Str) : copiesOf (m + 1) u = u ++ copiesOf m u := by
  simp [copiesOf, List.replicate_succ]

theorem copiesOf_zero (u : Str) : copiesOf 0 u = [] := rfl

theorem copiesOf_add (m j : Nat) (u : Str) : copiesOf (m + j) u = copiesOf m u ++ copiesOf j u := by
  rw [copiesOf, copiesOf, copiesOf, ← List.replicate_append_replicate, List.flatten_append]

theorem length_copiesOf (m : Nat) (u : Str) : (copiesOf m u).length = m * u.length := by
  simp [copiesOf]

theorem mem_copiesOf {m : Nat} {u : Str} {c : Char} (h : c ∈ copiesOf m u) : c ∈ u := by
  simp only [copiesOf, List.mem_flatten, List.mem_replicate] at h
  obtain ⟨l, ⟨_, rfl⟩, h⟩ := h
  exact h

theorem copies_spec {u : Str} (hu : u ≠ []) : ∀ (fuel : Nat) (s : Str), s.length ≤ fuel →
    ∃ rest, s = copiesOf (copies u fuel s) u ++ rest ∧ ¬ u <+: rest := by
  have hl : 0 < u.length := List.length_pos_iff.2 hu
  intro fuel
  induction fuel with
  | zero =>
    intro s hs
    have : s = [] := by cases s with
      | nil => rfl
      | cons a l => simp at hs
    subst this
    refine ⟨[], rfl, ?_⟩
    intro h
    have := h.length_le
    simp at this; exact hu this
  | succ fuel ih =>
    intro s hs
    simp only [copies]
    by_cases hp : u <+: s
    · have hp' : u.isPrefixOf s = true := List.isPrefixOf_iff_prefix.2 hp
      rw [if_pos ⟨hu, hp'⟩]
      obtain ⟨t, rfl⟩ := hp
      have hd : (u ++ t).drop u.length = t := by simp
      rw [hd]
      obtain ⟨rest, h1, h2⟩ := ih t (by simp at hs; omega)
      refine ⟨rest, ?_, h2⟩
      rw [copiesOf_succ, List.append_assoc, ← h1]
    · have hp' : ¬ (u ≠ [] ∧ u.isPrefixOf s = true) := fun h => hp (List.isPrefixOf_iff_prefix.1 h.2)
      rw [if_neg hp']
      exact ⟨s, rfl, hp⟩

theorem subGo_skip (isWord : Char → Bool) (k n : Nat) : ∀ (skip : Nat) (s : Str),
    subGo isWord k n skip s = subGo isWord k n 0 (s.drop skip) := by
  intro skip
  induction skip with
  | zero => intro s; rfl
  | succ skip ih =>
    intro s
    cases s with
    | nil => simp [subGo]
    | cons c cs => simp only [subGo, List.drop_succ_cons]; exact ih cs

/-- maximal number of copies is unique -/
theorem copies_unique {u : Str} (_hu : u ≠ []) : ∀ {m m' : Nat} {r r' : Str},
    copiesOf m u ++ r = copiesOf m' u ++ r' → ¬ u <+: r → ¬ u <+: r' → m = m' ∧ r = r' := by
  intro m
  induction m with
  | zero =>
    intro m' r r' h h1 h2
    cases m' with
    | zero => exact ⟨rfl, by simpa [copiesOf_zero] using h⟩
    | succ m' =>
      exfalso; apply h1
      rw [copiesOf_zero, List.nil_append, copiesOf_succ, List.append_assoc] at h
      exact ⟨_, h.symm⟩
  | succ m ih =>
    intro m' r r' h h1 h2
    cases m' with
    | zero =>
      exfalso; apply h2
      rw [copiesOf_zero, List.nil_append, copiesOf_succ, List.append_assoc] at h
      exact ⟨_, h⟩
    | succ m' =>
      rw [copiesOf_succ, copiesOf_succ, List.append_assoc, List.append_assoc] at h
      obtain ⟨a, b⟩ := ih (List.append_cancel_left h) h1 h2
      exact ⟨by omega, b⟩

theorem group_ne_nil {isWord : Char → Bool} {k : Nat} (hk : 0 < k) {u : Str} (h : Group isWord k u) : u ≠ [] := by
  rintro rfl; have := h.1; simp at this; omega

/-- the substitution does what the specification says -/
theorem subWidth_shortened (isWord : Char → Bool) {k : Nat} (hk : 0 < k) (n : Nat) (s : Str) :
    Shortened isWord k n s (subWidth isWord k n s) := by
  generalize hN : s.length = N
  induction N using Nat.strongRecOn generalizing s with
  | _ N ih =>
    cases s with
    | nil => exact .nil
    | cons c cs =>
      unfold subWidth
      simp only [subGo]
      set u := (c :: cs).take k with hu
      split
      · rename_i hc
        obtain ⟨h1, h2, h3⟩ := hc
        have hune : u ≠ [] := by intro h; rw [h] at h1; simp at h1; omega
        obtain ⟨rest, e, hr⟩ := copies_spec hune cs.length ((c :: cs).drop k) (by simp; omega)
        set m := copies u cs.length ((c :: cs).drop k) with hm
        have hs : c :: cs = copiesOf (m + 1) u ++ rest := by
          rw [copiesOf_succ, List.append_assoc, ← e, hu, List.take_append_drop]
        have hlen : (copiesOf (m + 1) u).length = k * (m + 1) := by rw [length_copiesOf, h1, Nat.mul_comm]
        have hrest : subGo isWord k n (k * (m + 1) - 1) cs = subWidth isWord k n rest := by
          rw [subGo_skip]
          unfold subWidth
          congr 1
          have h5 : cs.drop (k * (m + 1) - 1) = (c :: cs).drop (k * (m + 1)) := by
            have h4 : k * (m + 1) = (k * (m + 1) - 1) + 1 := by
              have : 0 < k * (m + 1) := Nat.mul_pos hk (Nat.succ_pos _)
              omega
            conv => rhs; rw [h4]
            rfl
          rw [h5, hs, ← hlen, List.drop_left]
        have hl : rest.length < N := by
          have := congrArg List.length hs
          rw [List.length_append, hlen] at this
          have h6 : 0 < k * (m + 1) := Nat.mul_pos hk (Nat.succ_pos _)
          omega
        rw [hrest, hs]
        exact .cut ⟨h1, fun c hc => List.all_eq_true.1 h2 c hc⟩ (by omega) hr (ih _ hl rest rfl)
      · rename_i hc
        refine .keep ?_ (ih cs.length (by simp at hN; omega) cs rfl)
        rintro v ⟨hv1, hv2⟩ ⟨t, ht⟩
        have hvne : v ≠ [] := group_ne_nil hk ⟨hv1, hv2⟩
        have e : (c :: cs).take k = v := by
          rw [← ht, copiesOf_succ, List.append_assoc, ← hv1, List.take_left]
        have huv : u = v := e
        have hd : (c :: cs).drop k = copiesOf 3 v ++ t := by
          rw [← ht, copiesOf_succ, List.append_assoc, ← hv1, List.drop_left]
        apply hc
        rw [huv]
        refine ⟨hv1, List.all_eq_true.2 hv2, ?_⟩
        obtain ⟨rest, e1, hr⟩ := copies_spec hvne cs.length ((c :: cs).drop k) (by simp; omega)
        by_contra hlt
        rw [hd] at e1 hlt
        -- fewer than three copies followed by something not starting with `v`
        have : ∀ m, m < 3 → copiesOf 3 v ++ t = copiesOf m v ++ rest → False := by
          intro m hm h
          obtain ⟨j, h3⟩ : ∃ j, 3 = m + (j + 1) := ⟨2 - m, by omega⟩
          apply hr
          rw [h3, copiesOf_add, List.append_assoc] at h
          have h8 := List.append_cancel_left h
          rw [copiesOf_succ, List.append_assoc] at h8
          exact ⟨_, h8⟩
        exact this _ (by omega) e1

/-- the specification determines the result -/
theorem shortened_unique {isWord : Char → Bool} {k n : Nat} (hk : 0 < k) {s t t' : Str}
    (h : Shortened isWord k n s t) (h' : Shortened isWord k n s t') : t = t' := by
  have cutPrefix : ∀ {u : Str} {m : Nat} {s : Str}, 4 ≤ m → copiesOf 4 u <+: copiesOf m u ++ s := by
    intro u m s hm
    obtain ⟨j, rfl⟩ : ∃ j, m = 4 + j := ⟨m - 4, by omega⟩
    refine ⟨copiesOf j u ++ s, ?_⟩
    rw [copiesOf_add, List.append_assoc]
  induction h generalizing t' with
  | nil =>
    generalize hs : ([] : Str) = s0 at h'
    cases h' with
    | nil => rfl
    | keep _ _ => simp at hs
    | cut hg hm _ _ =>
      exfalso
      have := congrArg List.length hs
      rw [List.length_append, length_copiesOf, hg.1] at this
      simp at this
      have h2 : 0 < _ * k := Nat.mul_pos (Nat.lt_of_lt_of_le (by decide : 0 < 4) hm) hk
      omega
  | @keep c s t hno hst ih =>
    generalize hs : (c :: s : Str) = s0 at h'
    cases h' with
    | nil => simp at hs
    | keep _ h2 =>
      simp only [List.cons.injEq] at hs
      obtain ⟨rfl, rfl⟩ := hs
      rw [ih h2]
    | cut hg hm _ _ =>
      exfalso
      apply hno _ hg
      rw [hs]
      exact cutPrefix hm
  | @cut u s t m hg hm hr hst ih =>
    generalize hs : (copiesOf m u ++ s : Str) = s0 at h'
    cases h' with
    | nil =>
      exfalso
      have := congrArg List.length hs
      rw [List.length_append, length_copiesOf, hg.1] at this
      simp at this
      have h2 : 0 < _ * k := Nat.mul_pos (Nat.lt_of_lt_of_le (by decide : 0 < 4) hm) hk
      omega
    | keep hno _ =>
      exfalso
      apply hno _ hg
      rw [← hs]
      exact cutPrefix hm
    | @cut u' s' t1 m' hg' hm' hr' hst' =>
      have hu : u = u' := by
        obtain ⟨j, rfl⟩ : ∃ j, m = j + 1 := ⟨m - 1, by omega⟩
        obtain ⟨j', rfl⟩ : ∃ j, m' = j + 1 := ⟨m' - 1, by omega⟩
        have h1 := congrArg (List.take k) hs
        rw [copiesOf_succ, copiesOf_succ, List.append_assoc, List.append_assoc] at h1
        rw [← hg.1, List.take_left, hg.1, ← hg'.1, List.take_left] at h1
        exact h1
      subst hu
      obtain ⟨_, rfl⟩ := copies_unique (group_ne_nil hk hg) hs hr hr'
      rw [ih hst']

theorem shortened_mem {isWord : Char → Bool} {k n : Nat} {s t : Str} (h : Shortened isWord k n s t) :
    ∀ c ∈ t, c ∈ s := by
  induction h with
  | nil => intro c hc; exact hc
  | keep _ _ ih =>
    intro c hc
    rcases List.mem_cons.1 hc with rfl | hc
    · exact List.mem_cons_self
    · exact List.mem_cons_of_mem _ (ih c hc)
  | @cut u s t m hg hm hr hst ih =>
    intro c hc
    rcases List.mem_append.1 hc with hc | hc
    · refine List.mem_append_left _ ?_
      obtain ⟨j, rfl⟩ : ∃ j, m = j + 1 := ⟨m - 1, by omega⟩
      rw [copiesOf_succ]
      exact List.mem_append_left _ (mem_copiesOf hc)
    · exact List.mem_append_right _ (ih c hc)

theorem shortened_length_le {isWord : Char → Bool} {k n : Nat} (hn : n ≤ 4) {s t : Str} (h : Shortened isWord k n s t) :
    t.length ≤ s.length := by
  induction h with
  | nil => exact Nat.le_refl _
  | keep _ _ ih => simpa using ih
  | @cut u s t m hg hm hr hst ih =>
    rw [List.length_append, List.length_append, length_copiesOf, length_copiesOf]
    have := Nat.mul_le_mul_right u.length (show n ≤ m by omega)
    omega

theorem shortened_ne_nil {isWord : Char → Bool} {k n : Nat} (hk : 0 < k) (hn : 0 < n) {s t : Str}
    (h : Shortened isWord k n s t) (hs : s ≠ []) : t ≠ [] := by
  cases h with
  | nil => exact absurd rfl hs
  | keep _ _ => simp
  | @cut u s t m hg hm hr hst =>
    intro h
    have := congrArg List.length h
    rw [List.length_append, length_copiesOf, hg.1] at this
    have h2 : 0 < n * k := Nat.mul_pos hn hk
    simp at this
    omega

/-- nothing written four times over: nothing changes -/
theorem shortened_fixed {isWord : Char → Bool} {k n : Nat} {s : Str}
    (h : ∀ u, Group isWord k u → ¬ copiesOf 4 u <:+: s) : Shortened isWord k n s s := by
  induction s with
  | nil => exact .nil
  | cons c s ih =>
    refine .keep (fun u hu hp => h u hu hp.isInfix) (ih fun u hu hi => h u hu ?_)
    exact hi.trans (List.suffix_cons c s).isInfix

theorem subWidth_iff (isWord : Char → Bool) {k : Nat} (hk : 0 < k) (n : Nat) (s t : Str) :
    subWidth isWord k n s = t ↔ Shortened isWord k n s t :=
  ⟨fun h => h ▸ subWidth_shortened isWord hk n s, fun h => shortened_unique hk (subWidth_shortened isWord hk n s) h⟩

/-- width one is the run-length substitution -/
theorem shortened_one (isWord : Char → Bool) (n : Nat) (s : Str) : Shortened isWord 1 n s (repeatSub isWord 4 n s) := by
  obtain ⟨rl, hm, rfl⟩ := exists_runs s
  rw [repeatSub_expand isWord 4 n rl hm]
  have hone : ∀ m (c : Char), copiesOf m [c] = List.replicate m c := by
    intro m c; simp [copiesOf, ]
  induction rl with
  | nil => exact .nil
  | cons e rl ih =>
    obtain ⟨c, m⟩ := e
    have hpos : 0 < m := MaximalRuns.pos hm
    have hnext : ¬ [c] <+: expand rl := by
      cases rl with
      | nil => simp [expand]
      | cons f rl =>
        obtain ⟨d, j⟩ := f
        have hj : 0 < j := MaximalRuns.pos (MaximalRuns.tail hm)
        obtain ⟨j, rfl⟩ : ∃ j', j = j' + 1 := ⟨j - 1, by omega⟩
        rw [expand_cons, List.replicate_succ, List.cons_append]
        rintro ⟨t, ht⟩
        simp only [List.cons_append, List.cons.injEq] at ht
        exact hm.2.1 ht.1
    have ih := ih (MaximalRuns.tail hm)
    rw [List.map_cons, expand_cons, expand_cons, replicate_shorten]
    dsimp only
    by_cases hw : (isWord c && decide (m ≥ 4)) = true
    · rw [if_pos hw, ← hone m c, ← hone n c]
      simp only [Bool.and_eq_true, decide_eq_true_eq] at hw
      exact .cut ⟨rfl, by intro x hx; simp at hx; subst hx; exact hw.1⟩ hw.2 hnext ih
    · rw [if_neg hw]
      have key : ∀ j, j ≤ m → Shortened isWord 1 n (List.replicate j c ++ expand rl) (List.replicate j c ++ expand (rl.map (shorten isWord 4 n))) := by
        intro j
        induction j with
        | zero => intro _; exact ih
        | succ j ihj =>
          intro hj
          rw [List.replicate_succ, List.cons_append, List.cons_append]
          refine .keep ?_ (ihj (by omega))
          rintro u ⟨hu1, hu2⟩ hp
          obtain ⟨d, rfl⟩ : ∃ d, u = [d] := by
            match u, hu1 with
            | [d], _ => exact ⟨d, rfl⟩
          rw [hone] at hp
          rw [← List.cons_append, ← List.replicate_succ] at hp
          have hdc : d = c := by
            obtain ⟨t, ht⟩ := hp
            simp only [List.replicate_succ, List.cons_append, List.cons.injEq] at ht
            exact ht.1
          subst hdc
          have hwd : isWord d = true := hu2 d (by simp)
          simp only [hwd, Bool.true_and, decide_eq_true_eq] at hw
          apply hnext
          obtain ⟨t, ht⟩ := hp
          obtain ⟨i, hi⟩ : ∃ i, 4 = (j + 1) + (i + 1) := ⟨2 - j, by omega⟩
          rw [hi, ← List.replicate_append_replicate, List.append_assoc] at ht
          have := List.append_cancel_left ht
          rw [List.replicate_succ, List.cons_append] at this
          exact ⟨_, this⟩
      exact key m (Nat.le_refl _)

/-! ### the letter-unfolding step -/

theorem decompose_of_syllable {c x y z : Char} (h : IsSyllableOf c x y z) : decompose c = .ok (some (x, y, z)) := by
  obtain ⟨i, j, k, hj, hc⟩ := h
  obtain ⟨hi, hj', hk⟩ := compose_of_jamoAt hj |>.choose_spec.2.2
  have hS : Syllable c := by
    constructor <;> omega
  obtain ⟨x', y', z', i', j', k', hd, hJ, hc'⟩ := decompose_syllable hS
  obtain ⟨a, b, d⟩ := compose_of_jamoAt hJ |>.choose_spec.2.2
  have e1 : i = i' := by omega
  have e2 : j = j' := by omega
  have e3 : k = k' := by omega
  subst e1 e2 e3
  obtain ⟨rfl, rfl, rfl⟩ := jamoAt_unique hj hJ
  exact hd

theorem syllable_of_isSyllableOf {c x y z : Char} (h : IsSyllableOf c x y z) : Syllable c := by
  obtain ⟨i, j, k, hj, hc⟩ := h
  obtain ⟨hi, hj', hk⟩ := compose_of_jamoAt hj |>.choose_spec.2.2
  constructor <;> omega

theorem initial_mem {x : Char} {i : Nat} (h : initialJamo[i]? = some x.toNat) : Consonant x := by
  have : ∀ n ∈ initialJamo, 0x3131 ≤ n ∧ n ≤ 0x314E := by decide +kernel
  exact this _ (List.mem_of_getElem? h)

theorem vowel_mem {x : Char} {i : Nat} (h : vowelJamo[i]? = some x.toNat) : Vowel x := by
  have : ∀ n ∈ vowelJamo, 0x314F ≤ n ∧ n ≤ 0x3163 := by decide +kernel
  exact this _ (List.mem_of_getElem? h)

theorem final_mem {x : Char} {i : Nat} (h : finalJamo[i]? = some x.toNat) : x = ' ' ∨ Consonant x := by
  have : ∀ n ∈ finalJamo, n = 0x20 ∨ (0x3131 ≤ n ∧ n ≤ 0x314E) := by decide +kernel
  rcases this _ (List.mem_of_getElem? h) with h | h
  · exact Or.inl (char_ext h)
  · exact Or.inr h

theorem letters_of {c x y z : Char} (h : IsSyllableOf c x y z) : Consonant x ∧ Vowel y ∧ (z = ' ' ∨ Consonant z) := by
  obtain ⟨i, j, k, hj, _⟩ := h
  exact ⟨initial_mem hj.1, vowel_mem hj.2.1, final_mem hj.2.2⟩

theorem blank_not_consonant : ¬ Consonant ' ' := by decide +kernel
theorem blank_not_vowel : ¬ Vowel ' ' := by decide +kernel

/-- the open syllable with the same initial and vowel -/
theorem exists_open {c x y z : Char} (h : IsSyllableOf c x y z) : ∃ o, IsSyllableOf o x y ' ' ∧ compose x y ' ' = .ok o := by
  obtain ⟨i, j, k, hj, _⟩ := h
  have hJ : JamoAt x y ' ' i j 0 := ⟨hj.1, hj.2.1, rfl⟩
  obtain ⟨o, h1, h2, _⟩ := compose_of_jamoAt hJ
  exact ⟨o, ⟨i, j, 0, hJ, h2⟩, h1⟩

theorem kinds (c : Char) : (∃ x y z, IsSyllableOf c x y z) ∨ Consonant c ∨ Vowel c ∨ ¬ Korean c := by
  by_cases hk : Korean c
  · rcases hk with h | h | h
    · obtain ⟨x, y, z, i, j, k, _, hJ, hc⟩ := decompose_syllable h
      exact Or.inl ⟨x, y, z, i, j, k, hJ, hc⟩
    · exact Or.inr (Or.inl h)
    · exact Or.inr (Or.inr (Or.inl h))
  · exact Or.inr (Or.inr (Or.inr hk))

theorem decompose_total (c : Char) : ∃ d, decompose c = .ok d := by
  rcases kinds c with ⟨x, y, z, h⟩ | h | h | h
  · exact ⟨_, decompose_of_syllable h⟩
  · exact ⟨_, decompose_consonant h⟩
  · exact ⟨_, decompose_vowel h⟩
  · exact ⟨_, decompose_nonkorean h⟩

/-- one step: three outcomes -/
theorem emojiStep_spec {c d : Char} {cd nd : Option (Char × Char × Char)} (hc : decompose c = .ok cd) (hd : decompose d = .ok nd) :
    (∃ o x y, IsSyllableOf c x y d ∧ d ≠ ' ' ∧ IsSyllableOf o x y ' ' ∧ emojiStep c cd nd = .ok [o, d]) ∨
    (∃ x, IsSyllableOf c x d ' ' ∧ emojiStep c cd nd = .ok [x, d]) ∨
    ((∀ x y, d ≠ ' ' → ¬ IsSyllableOf c x y d) ∧ (∀ x, ¬ IsSyllableOf c x d ' ') ∧ emojiStep c cd nd = .ok [c]) := by
  have sylNot : ∀ {c x y z : Char}, IsSyllableOf c x y z → ¬ Consonant c ∧ ¬ Vowel c ∧ Korean c := by
    intro c x y z h
    have := syllable_of_isSyllableOf h
    unfold Syllable at this
    unfold Consonant Vowel
    exact ⟨by omega, by omega, Or.inl this⟩
  have cv : ∀ {c : Char}, Consonant c → ¬ Vowel c := by
    intro c h; unfold Consonant at h; unfold Vowel; omega
  -- the first of the pair
  rcases kinds c with ⟨x, y, z, h⟩ | h | h | h
  · have ec := decompose_of_syllable h
    rw [ec] at hc; cases hc
    obtain ⟨hx, hy, hz⟩ := letters_of h
    have uniq : ∀ {a b e}, IsSyllableOf c a b e → x = a ∧ y = b ∧ z = e := by
      intro a b e h'
      have := decompose_of_syllable h'
      rw [ec] at this
      simpa using this
    rcases kinds d with ⟨x', y', z', h'⟩ | h' | h' | h'
    · have ed := decompose_of_syllable h'
      rw [ed] at hd; cases hd
      obtain ⟨hx', hy', hz'⟩ := letters_of h'
      refine Or.inr (Or.inr ⟨?_, ?_, ?_⟩)
      · intro a b hb hs
        obtain ⟨_, _, e⟩ := uniq hs
        subst e
        rcases hz with e | hz
        · exact hb e
        · exact (sylNot h').1 hz
      · intro a hs
        obtain ⟨_, e, _⟩ := uniq hs
        subst e
        exact (sylNot h').2.1 hy
      · have n1 : y' ≠ ' ' := by rintro rfl; exact blank_not_vowel hy'
        have n2 : x' ≠ ' ' := by rintro rfl; exact blank_not_consonant hx'
        simp [emojiStep, n1, n2]
    · rw [decompose_consonant h'] at hd; cases hd
      have nd' : d ≠ ' ' := by rintro rfl; exact blank_not_consonant h'
      by_cases e : z = d
      · subst e
        obtain ⟨o, ho, ho'⟩ := exists_open h
        refine Or.inl ⟨o, x, y, h, nd', ho, ?_⟩
        simp only [emojiStep, and_self, if_true]
        rw [ho']; rfl
      · refine Or.inr (Or.inr ⟨?_, ?_, ?_⟩)
        · intro a b _ hs; exact e (uniq hs).2.2
        · intro a hs
          obtain ⟨_, e, _⟩ := uniq hs
          subst e
          exact cv h' hy
        · simp [emojiStep, e, nd']
    · rw [decompose_vowel h'] at hd; cases hd
      have nd' : d ≠ ' ' := by rintro rfl; exact blank_not_vowel h'
      have ny : x ≠ ' ' := by rintro rfl; exact blank_not_consonant hx
      by_cases e : z = ' ' ∧ y = d
      · obtain ⟨rfl, rfl⟩ := e
        refine Or.inr (Or.inl ⟨x, h, ?_⟩)
        simp [emojiStep, ny, nd']
      · refine Or.inr (Or.inr ⟨?_, ?_, ?_⟩)
        · intro a b _ hs
          obtain ⟨_, _, e⟩ := uniq hs
          subst e
          rcases hz with e | hz
          · exact nd' e
          · exact cv hz h'
        · intro a hs
          obtain ⟨_, e1, e2⟩ := uniq hs
          exact e ⟨e2, e1⟩
        · simp only [emojiStep]
          rw [if_neg (by intro h; exact nd' h.1), if_neg (by intro h; exact e ⟨h.1, h.2.2⟩)]
    · rw [decompose_nonkorean h'] at hd; cases hd
      refine Or.inr (Or.inr ⟨?_, ?_, rfl⟩)
      · intro a b hb hs
        obtain ⟨_, _, e⟩ := uniq hs
        subst e
        rcases hz with e | hz
        · exact hb e
        · exact h' (Or.inr (Or.inl hz))
      · intro a hs
        obtain ⟨_, e, _⟩ := uniq hs
        subst e
        exact h' (Or.inr (Or.inr hy))
  all_goals
    have no : ∀ {a b e}, ¬ IsSyllableOf c a b e := by
      intro a b e hs
      first
        | exact (sylNot hs).1 h
        | exact (sylNot hs).2.1 h
        | exact h (sylNot hs).2.2
    refine Or.inr (Or.inr ⟨fun _ _ _ => no, fun _ => no, ?_⟩)
  · rw [decompose_consonant h] at hc; cases hc
    have nc : c ≠ ' ' := by rintro rfl; exact blank_not_consonant h
    rcases kinds d with ⟨x', y', z', h'⟩ | h' | h' | h'
    · rw [decompose_of_syllable h'] at hd; cases hd
      obtain ⟨hx', hy', _⟩ := letters_of h'
      have n1 : y' ≠ ' ' := by rintro rfl; exact blank_not_vowel hy'
      have n2 : x' ≠ ' ' := by rintro rfl; exact blank_not_consonant hx'
      simp [emojiStep, n1, n2]
    · rw [decompose_consonant h'] at hd; cases hd
      have n1 : d ≠ ' ' := by rintro rfl; exact blank_not_consonant h'
      simp [emojiStep, n1, Ne.symm n1]
    · rw [decompose_vowel h'] at hd; cases hd
      have n1 : d ≠ ' ' := by rintro rfl; exact blank_not_vowel h'
      simp [emojiStep, n1, Ne.symm n1]
    · rw [decompose_nonkorean h'] at hd; cases hd; rfl
  · rw [decompose_vowel h] at hc; cases hc
    have nc : c ≠ ' ' := by rintro rfl; exact blank_not_vowel h
    rcases kinds d with ⟨x', y', z', h'⟩ | h' | h' | h'
    · rw [decompose_of_syllable h'] at hd; cases hd
      obtain ⟨hx', hy', _⟩ := letters_of h'
      have n1 : y' ≠ ' ' := by rintro rfl; exact blank_not_vowel hy'
      have n2 : x' ≠ ' ' := by rintro rfl; exact blank_not_consonant hx'
      simp [emojiStep, n1, n2]
    · rw [decompose_consonant h'] at hd; cases hd
      have n1 : d ≠ ' ' := by rintro rfl; exact blank_not_consonant h'
      simp [emojiStep, n1, Ne.symm n1]
    · rw [decompose_vowel h'] at hd; cases hd
      have n1 : d ≠ ' ' := by rintro rfl; exact blank_not_vowel h'
      simp [emojiStep, n1]
    · rw [decompose_nonkorean h'] at hd; cases hd; rfl
  · rw [decompose_nonkorean h] at hc; cases hc; rfl

theorem mapM_decompose (s : Str) : ∃ ds, s.mapM decompose = .ok ds ∧ ds.length = s.length := by
  induction s with
  | nil => exact ⟨[], rfl, rfl⟩
  | cons c s ih =>
    obtain ⟨ds, h, hl⟩ := ih
    obtain ⟨d, hd⟩ := decompose_total c
    exact ⟨d :: ds, by rw [List.mapM_cons, hd, h]; rfl, by simp [hl]⟩

theorem mapM_decompose_cons {c : Char} {s : Str} {ds : List (Option (Char × Char × Char))} (h : (c :: s).mapM decompose = .ok ds) :
    ∃ d es, decompose c = .ok d ∧ s.mapM decompose = .ok es ∧ ds = d :: es := by
  obtain ⟨d, hd⟩ := decompose_total c
  obtain ⟨es, he, _⟩ := mapM_decompose s
  rw [List.mapM_cons, hd, he] at h
  cases h
  exact ⟨d, es, hd, he, rfl⟩

theorem emojiLoop_spec : ∀ (s : Str) (c : Char) (ds : List (Option (Char × Char × Char))), (c :: s).mapM decompose = .ok ds →
    ∃ xs, emojiLoop (c :: s) ds ds.tail = .ok xs ∧ Unfolded (c :: s) (xs.flatten ++ (c :: s).getLast?.toList) := by
  intro s
  induction s with
  | nil =>
    intro c ds h
    obtain ⟨d, es, hd, he, rfl⟩ := mapM_decompose_cons h
    cases he
    exact ⟨[], rfl, .last c⟩
  | cons d s ih =>
    intro c ds h
    obtain ⟨cd, es, hcd, he, rfl⟩ := mapM_decompose_cons h
    obtain ⟨xs, hx, hu⟩ := ih d es he
    obtain ⟨nd, es', hnd, he', rfl⟩ := mapM_decompose_cons he
    have hg : (c :: d :: s).getLast? = (d :: s).getLast? := by simp
    have hloop : ∀ x, emojiStep c cd nd = .ok x → emojiLoop (c :: d :: s) (cd :: nd :: es') (nd :: es') = .ok (x :: xs) := by
      intro x h
      simp only [List.tail_cons] at hx
      simp only [emojiLoop]
      rw [h]
      have := hx
      show ((.ok x : PyM Str) >>= fun x => _) = _
      show (emojiLoop (d :: s) (nd :: es') es' >>= fun xs => Except.ok (x :: xs)) = _
      rw [hx]; rfl
    rw [hg]
    rcases emojiStep_spec hcd hnd with ⟨o, x, y, h1, h2, h3, h4⟩ | ⟨x, h1, h4⟩ | ⟨h1, h2, h4⟩
    · exact ⟨_, hloop _ h4, .final h1 h2 h3 hu⟩
    · exact ⟨_, hloop _ h4, .vowel h1 hu⟩
    · exact ⟨_, hloop _ h4, .keep h1 h2 hu⟩

theorem normalizeEmoji_spec (w : Str) : ∃ t, normalizeEmoji w = .ok t ∧ Unfolded w t := by
  unfold normalizeEmoji
  split
  · rename_i h
    refine ⟨w, rfl, ?_⟩
    match w, h with
    | [], _ => exact .nil
    | [c], _ => exact .last c
  · rename_i h
    match w, h with
    | c :: s, h =>
      obtain ⟨ds, hd, _⟩ := mapM_decompose (c :: s)
      obtain ⟨xs, hx, hu⟩ := emojiLoop_spec s c ds hd
      refine ⟨_, ?_, hu⟩
      rw [hd]
      show (emojiLoop (c :: s) ds ds.tail >>= _) = _
      rw [hx]; rfl

theorem unfolded_unique {s t t' : Str} (h : Unfolded s t) (h' : Unfolded s t') : t = t' := by
  have uniq : ∀ {c x y z a b e : Char}, IsSyllableOf c x y z → IsSyllableOf c a b e → x = a ∧ y = b ∧ z = e := by
    intro c x y z a b e h h'
    have h1 := decompose_of_syllable h
    rw [decompose_of_syllable h'] at h1
    simp at h1
    exact ⟨h1.1.symm, h1.2.1.symm, h1.2.2.symm⟩
  have uo : ∀ {o o' x y z : Char}, IsSyllableOf o x y z → IsSyllableOf o' x y z → o = o' := by
    intro o o' x y z h h'
    have h1 := Lemma.isSyllableOf_iff.1 h
    rw [Lemma.isSyllableOf_iff.1 h'] at h1
    simp at h1
    exact h1.symm
  induction h generalizing t' with
  | nil => cases h'; rfl
  | last c => cases h'; rfl
  | final h1 h2 h3 _ ih =>
    cases h' with
    | final g1 g2 g3 g4 =>
      obtain ⟨rfl, rfl, _⟩ := uniq h1 g1
      rw [uo h3 g3, ih g4]
    | vowel g1 g2 => exact absurd (uniq h1 g1).2.2 h2
    | keep g1 _ _ => exact absurd h1 (g1 _ _ h2)
  | vowel h1 _ ih =>
    cases h' with
    | final g1 g2 g3 g4 => exact absurd (uniq h1 g1).2.2.symm g2
    | vowel g1 g2 =>
      obtain ⟨rfl, _, _⟩ := uniq h1 g1
      rw [ih g2]
    | keep _ g2 _ => exact absurd h1 (g2 _)
  | keep h1 h2 _ ih =>
    cases h' with
    | final g1 g2 g3 g4 => exact absurd g1 (h1 _ _ g2)
    | vowel g1 g2 => exact absurd g1 (h2 _)
    | keep _ _ g3 => rw [ih g3]

/-- the letters stay the same -/
theorem unfolded_letters {s t ps : Str} (h : Unfolded s t) (hs : SpellsText s ps) : SpellsText t ps := by
  have uniq : ∀ {c x y z a b e : Char}, IsSyllableOf c x y z → IsSyllableOf c a b e → x = a ∧ y = b ∧ z = e := by
    intro c x y z a b e h h'
    have h1 := decompose_of_syllable h
    rw [decompose_of_syllable h'] at h1
    simp at h1
    exact ⟨h1.1.symm, h1.2.1.symm, h1.2.2.symm⟩
  have nsC : ∀ {c : Char}, Consonant c → ¬ Syllable c := by
    intro c h; unfold Consonant at h; unfold Syllable; omega
  have nsV : ∀ {c : Char}, Vowel c → ¬ Syllable c := by
    intro c h; unfold Vowel at h; unfold Syllable; omega
  induction h generalizing ps with
  | nil => exact hs
  | last c => exact hs
  | @final c o x y z s t h1 h2 h3 _ ih =>
    cases hs with
    | @cons _ ps1 _ qs hc hr =>
      have : ps1 = [x, y, z] := by
        cases hc with
        | other hn => exact absurd (syllable_of_isSyllableOf h1) hn
        | «open» a b g => exact absurd (uniq h1 g).2.2 h2
        | closed a b e g _ => obtain ⟨rfl, rfl, rfl⟩ := uniq h1 g; rfl
      subst this
      have hz : Consonant z := by
        rcases (letters_of h1).2.2 with e | e
        · exact absurd e h2
        · exact e
      have e : [x, y, z] ++ qs = [x, y] ++ ([z] ++ qs) := rfl
      rw [e]
      exact .cons (.open x y h3) (.cons (.other (nsC hz)) (ih hr))
  | @vowel c x y s t h1 _ ih =>
    cases hs with
    | @cons _ ps1 _ qs hc hr =>
      have : ps1 = [x, y] := by
        cases hc with
        | other hn => exact absurd (syllable_of_isSyllableOf h1) hn
        | «open» a b g => obtain ⟨rfl, rfl, _⟩ := uniq h1 g; rfl
        | closed a b e g hne => exact absurd (uniq h1 g).2.2.symm hne
      subst this
      obtain ⟨hx, hy, _⟩ := letters_of h1
      have e : [x, y] ++ qs = [x] ++ ([y] ++ qs) := rfl
      rw [e]
      exact .cons (.other (nsC hx)) (.cons (.other (nsV hy)) (ih hr))
  | keep _ _ _ ih =>
    cases hs with
    | cons hc hr => exact .cons hc (ih hr)

end TokNorm

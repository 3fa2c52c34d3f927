import Verif.Proofs.RegexTok
import Mathlib.Data.List.TakeWhile
/-! Script purity of the regex tokenizer. -/
namespace RegexTok
open Py Spec

theorem run_split (p : Char → Bool) (s : Str) : s.take (runLength p s) = s.takeWhile p ∧ s.drop (runLength p s) = s.dropWhile p := by
  unfold runLength
  have h := List.takeWhile_append_dropWhile (p := p) (l := s)
  generalize s.takeWhile p = a at *
  generalize s.dropWhile p = b at *
  subst h
  simp

theorem matchDigits_ne_none_iff (isDigit : Char → Bool) (s : Str) :
    matchDigits isDigit s ≠ none ↔ (∃ c cs, s = c :: cs ∧ isDigit c = true) ∨ (∃ c cs, s = '.' :: c :: cs ∧ isDigit c = true) := by
  by_cases hd : runLength isDigit s = 0
  · have hno : ¬ ∃ c cs, s = c :: cs ∧ isDigit c = true := by
      rintro ⟨c, cs, rfl, hc⟩; exact runLength_pos hc hd
    unfold matchDigits
    simp only [hd, List.drop_zero]
    constructor
    · intro h
      right
      split at h
      · rename_i rest
        split at h
        · rename_i hf
          obtain ⟨c, cs, rfl, hc⟩ := head_of_runLength hf
          exact ⟨c, cs, rfl, hc⟩
        · simp at h
      · simp at h
    · rintro (h | ⟨c, cs, rfl, hc⟩)
      · exact absurd h hno
      · simp [runLength_pos hc]
  · constructor
    · intro _; left; exact head_of_runLength hd
    · intro _
      unfold matchDigits
      dsimp only
      split
      · split <;> simp
      · simp [hd]

theorem matchDigits_chars (isDigit : Char → Bool) (s : Str) (k : Nat) (h : matchDigits isDigit s = some k) :
    ∀ c ∈ s.take k, isDigit c = true ∨ c = '.' := by
  have hrun : ∀ t : Str, ∀ c ∈ t.take (runLength isDigit t), isDigit c = true := by
    intro t c hc
    have : t.take (runLength isDigit t) = t.takeWhile isDigit := by
      exact (run_split isDigit t).1
    rw [this] at hc
    exact (List.mem_takeWhile_imp hc)
  unfold matchDigits at h
  simp only at h
  split at h
  · rename_i rest hd
    split at h
    · simp only [Option.some.injEq] at h
      intro c hc
      have e : s = s.take (runLength isDigit s) ++ '.' :: rest := by
        have := List.take_append_drop (runLength isDigit s) s; rw [hd] at this; exact this.symm
      have hl : (s.take (runLength isDigit s)).length = runLength isDigit s := by
        rw [List.length_take]; have := runLength_le isDigit s; omega
      rw [e, ← h, List.take_append, hl] at hc
      rcases List.mem_append.1 hc with hc | hc
      · left; exact hrun s c (List.mem_of_mem_take hc)
      · rw [show runLength isDigit s + 1 + runLength isDigit rest - runLength isDigit s = runLength isDigit rest + 1 by omega,
          List.take_succ_cons] at hc
        rcases List.mem_cons.1 hc with rfl | hc
        · right; rfl
        · left; exact hrun rest c hc
    · split at h
      · simp only [Option.some.injEq] at h; subst h; intro c hc; exact Or.inl (hrun s c hc)
      · cases h
  · split at h
    · simp only [Option.some.injEq] at h; subst h; intro c hc; exact Or.inl (hrun s c hc)
    · cases h

theorem matchNumber_chars (isDigit : Char → Bool) (s : Str) (k : Nat) (h : matchNumber isDigit s = some k) :
    ∀ c ∈ s.take k, isDigit c = true ∨ c = '.' ∨ c = '-' ∨ c = '+' := by
  cases s with
  | nil => cases h
  | cons d rest =>
    simp only [matchNumber] at h
    split at h
    · rename_i hs
      simp only [Option.map_eq_some_iff] at h
      obtain ⟨j, hj, rfl⟩ := h
      intro c hc
      rw [List.take_succ_cons] at hc
      rcases List.mem_cons.1 hc with rfl | hc
      · simp at hs; exact Or.inr (Or.inr hs)
      · rcases matchDigits_chars isDigit rest j hj c hc with h | h
        · exact Or.inl h
        · exact Or.inr (Or.inl h)
    · intro c hc
      rcases matchDigits_chars isDigit _ k h c hc with h | h
      · exact Or.inl h
      · exact Or.inr (Or.inl h)

theorem digits_stable (isDigit : Char → Bool) (u v : Str) (k : Nat) (hv : matchDigits isDigit v = some k)
    (hpre : v.take k <+: u) : matchDigits isDigit u ≠ none := by
  have h1 : matchDigits isDigit v ≠ none := by rw [hv]; simp
  have hk := digits_le isDigit v k hv
  rw [matchDigits_ne_none_iff] at h1 ⊢
  obtain ⟨t, ht⟩ := hpre
  rcases h1 with ⟨c, cs, rfl, hc⟩ | ⟨c, cs, rfl, hc⟩
  · left
    obtain ⟨j, rfl⟩ : ∃ j, k = j + 1 := ⟨k - 1, by omega⟩
    rw [List.take_succ_cons] at ht
    exact ⟨c, _, ht.symm, hc⟩
  · by_cases hd : isDigit '.' = true
    · left
      obtain ⟨j, rfl⟩ : ∃ j, k = j + 1 := ⟨k - 1, by omega⟩
      rw [List.take_succ_cons] at ht
      exact ⟨_, _, ht.symm, hd⟩
    · right
      have hd0 : runLength isDigit ('.' :: c :: cs) = 0 := by simp [runLength, hd]
      have : 2 ≤ k := by
        unfold matchDigits at hv
        simp only [hd0, List.drop_zero] at hv
        have := runLength_pos (cs := cs) hc
        simp only [this, ne_eq, not_false_eq_true, if_true, Option.some.injEq] at hv
        omega
      obtain ⟨j, rfl⟩ : ∃ j, k = j + 2 := ⟨k - 2, by omega⟩
      rw [List.take_succ_cons, List.take_succ_cons] at ht
      exact ⟨c, _, ht.symm, hc⟩

theorem stable_number (isDigit : Char → Bool) : Stable (matchNumber isDigit) := by
  intro u v k hv hpre
  have hk := (proper_number isDigit v k hv).1
  cases v with
  | nil => cases hv
  | cons c rest =>
    obtain ⟨t, ht⟩ := hpre
    obtain ⟨j, rfl⟩ : ∃ j, k = j + 1 := ⟨k - 1, by omega⟩
    rw [List.take_succ_cons, List.cons_append] at ht
    subst ht
    simp only [matchNumber] at hv ⊢
    split at hv
    · rename_i hc
      simp only [hc, if_true]
      simp only [Option.map_eq_some_iff] at hv
      obtain ⟨i, hi, h⟩ := hv
      have : i = j := by omega
      subst this
      have := digits_stable isDigit (rest.take i ++ t) rest i hi ⟨t, rfl⟩
      simpa using this
    · rename_i hc
      rw [if_neg hc]
      exact digits_stable isDigit _ (c :: rest) (j + 1) hv ⟨t, by simp⟩

/-! ### spaced text -/

theorem spaced_skip (m : Str → Option Nat) (s : Str) (skip : Nat) : spaced m skip s = spaced m 0 (s.drop skip) := by
  induction s generalizing skip with
  | nil => simp [spaced]
  | cons c cs ih =>
    cases skip with
    | zero => simp
    | succ n => simpa [spaced] using ih n

theorem spaced_match (m : Str → Option Nat) (hp : Proper m) (s : Str) (k : Nat) (h : m s = some k) :
    spaced m 0 s = ' ' :: (s.take k ++ ' ' :: spaced m 0 (s.drop k)) := by
  have hk := hp s k h
  cases s with
  | nil => simp at hk; omega
  | cons c cs =>
    simp only [spaced, h]
    rw [spaced_skip]
    obtain ⟨j, rfl⟩ : ∃ j, k = j + 1 := ⟨k - 1, by omega⟩
    simp

/-- induction along the matches -/
theorem match_induction (m : Str → Option Nat) (hp : Proper m) {P : Str → Prop} (hnil : P [])
    (hmatch : ∀ s k, m s = some k → P (s.drop k) → P s) (hno : ∀ c cs, m (c :: cs) = none → P cs → P (c :: cs)) (s : Str) : P s := by
  have key : ∀ n, ∀ s : Str, s.length ≤ n → P s := by
    intro n
    induction n with
    | zero => intro s h; have : s = [] := List.length_eq_zero_iff.1 (by omega); subst this; exact hnil
    | succ n ih =>
      intro s h
      cases s with
      | nil => exact hnil
      | cons c cs =>
        cases hm : m (c :: cs) with
        | some k =>
          have hk := hp _ _ hm
          refine hmatch _ k hm (ih _ ?_)
          rw [List.length_drop]; simp only [List.length_cons] at h ⊢; omega
        | none => exact hno c cs hm (ih _ (by simp only [List.length_cons] at h; omega))
  exact key s.length s (Nat.le_refl _)

private theorem runsGo_nonp (p : Char → Bool) (w t : Str) (h : ∀ c ∈ w, p c = false) : runsGo p [] (w ++ t) = runsGo p [] t := by
  induction w with
  | nil => rfl
  | cons c w ih => simp [runsGo, h c (by simp), ih (fun d hd => h d (by simp [hd]))]

private theorem runsGo_flush (p : Char → Bool) (cur w t : Str) (hw : w ≠ []) (h : ∀ c ∈ w, p c = false) :
    runsGo p cur (w ++ t) = (if cur = [] then [] else [cur]) ++ runsGo p [] t := by
  cases w with
  | nil => exact absurd rfl hw
  | cons c w =>
    have hr := runsGo_nonp p w t (fun d hd => h d (by simp [hd]))
    simp only [List.cons_append, runsGo, h c (by simp), Bool.false_eq_true, if_false, hr]
    split <;> simp

/-- a pattern whose matches contain no `p` character leaves the `p` runs as they are -/
theorem runs_spaced_other (p : Char → Bool) (hb : p ' ' = false) (m : Str → Option Nat) (hp : Proper m)
    (hm : ∀ s k, m s = some k → ∀ c ∈ s.take k, p c = false) (s : Str) : runs p (spaced m 0 s) = runs p s := by
  unfold runs
  suffices h : ∀ cur, runsGo p cur (spaced m 0 s) = runsGo p cur s from h []
  refine match_induction m hp (P := fun s => ∀ cur, runsGo p cur (spaced m 0 s) = runsGo p cur s) ?_ ?_ ?_ s
  · intro cur; rfl
  · intro s k h ih cur
    have hk := hp s k h
    rw [spaced_match m hp s k h]
    have hne : s.take k ≠ [] := by
      intro h0
      have : (s.take k).length = 0 := by rw [h0]; rfl
      rw [List.length_take] at this; omega
    have e1 : (' ' :: (s.take k ++ ' ' :: spaced m 0 (s.drop k))) = ([' '] ++ s.take k ++ [' ']) ++ spaced m 0 (s.drop k) := by simp
    rw [e1, runsGo_flush p cur _ _ (by simp) (by
      intro c hc
      simp only [List.mem_append, List.mem_singleton] at hc
      rcases hc with (rfl | hc) | rfl
      · exact hb
      · exact hm s k h c hc
      · exact hb), ih []]
    conv => rhs; rw [← List.take_append_drop k s]
    rw [runsGo_flush p cur _ _ hne (hm s k h)]
  · intro c cs h ih cur
    have : spaced m 0 (c :: cs) = c :: spaced m 0 cs := by simp [spaced, h]
    rw [this]
    simp only [runsGo]
    split
    · exact ih _
    · split
      · exact ih _
      · rw [ih]

private theorem runsGo_all (p : Char → Bool) (w cur t : Str) (h : ∀ c ∈ w, p c = true) : runsGo p cur (w ++ t) = runsGo p (cur ++ w) t := by
  induction w generalizing cur with
  | nil => simp
  | cons c w ih =>
    simp only [List.cons_append, runsGo, h c (by simp), if_true]
    rw [ih (cur ++ [c]) (fun d hd => h d (by simp [hd]))]; simp

theorem runsGo_close (p : Char → Bool) (w t : Str) (hw : w ≠ []) (h : ∀ c, t.head? = some c → p c = false) :
    runsGo p w t = w :: runsGo p [] t := by
  cases t with
  | nil => simp [runsGo, hw]
  | cons c t =>
    have := h c rfl
    simp [runsGo, this, hw]

theorem head_dropWhile (p : Char → Bool) (s : Str) : ∀ c, (s.dropWhile p).head? = some c → p c = false := by
  intro c hc
  have := List.head?_dropWhile_not p s
  rw [hc] at this
  simpa using this

theorem matchRun_none {p : Char → Bool} {c : Char} {cs : Str} (h : matchRun p (c :: cs) = none) : p c = false := by
  cases hp : p c
  · rfl
  · simp [matchRun, runLength_pos hp] at h

theorem matchRun_some {p : Char → Bool} {s : Str} {k : Nat} (h : matchRun p s = some k) : k = runLength p s ∧ k ≠ 0 := by
  unfold matchRun at h
  split at h
  · cases h
  · simp only [Option.some.injEq] at h; subst h; exact ⟨rfl, by assumption⟩

/-- the pattern `[p]+` leaves the `p` runs as they are -/
theorem runs_spaced_own (p : Char → Bool) (hb : p ' ' = false) (s : Str) : runs p (spaced (matchRun p) 0 s) = runs p s := by
  unfold runs
  refine match_induction (matchRun p) (proper_run p) (P := fun s => runsGo p [] (spaced (matchRun p) 0 s) = runsGo p [] s) ?_ ?_ ?_ s
  · rfl
  · intro s k h ih
    obtain ⟨rfl, hk⟩ := matchRun_some h
    have hne : s.takeWhile p ≠ [] := by
      intro h0; exact hk (by simp [runLength, h0])
    have hall : ∀ c ∈ s.takeWhile p, p c = true := fun c hc => List.mem_takeWhile_imp hc
    rw [spaced_match _ (proper_run p) s _ h]
    rw [(run_split p s).1, (run_split p s).2] at *
    conv => rhs; rw [← List.takeWhile_append_dropWhile (p := p) (l := s)]
    rw [runsGo_all p _ [] _ hall, List.nil_append, runsGo_close p _ _ hne (head_dropWhile p s)]
    have : runsGo p [] (' ' :: (s.takeWhile p ++ ' ' :: spaced (matchRun p) 0 (s.dropWhile p))) =
        runsGo p [] (s.takeWhile p ++ ' ' :: spaced (matchRun p) 0 (s.dropWhile p)) := by simp [runsGo, hb]
    rw [this, runsGo_all p _ [] _ hall, List.nil_append, runsGo_close p _ _ hne (by intro c hc; simp at hc; subst hc; exact hb)]
    simp only [runsGo, hb, Bool.false_eq_true, if_false, if_true]
    rw [ih]
  · intro c cs h ih
    have hc := matchRun_none h
    have : spaced (matchRun p) 0 (c :: cs) = c :: spaced (matchRun p) 0 cs := by simp [spaced, h]
    rw [this]
    simp only [runsGo, hc, Bool.false_eq_true, if_false, if_true]
    exact ih

/-- neighbours are on the same side of `p`, or one of them is whitespace -/
def Sep (p : Char → Bool) : Str → Prop
  | [] => True
  | [_] => True
  | x :: y :: t => (p x = p y ∨ isSpace x = true ∨ isSpace y = true) ∧ Sep p (y :: t)

theorem Sep.tail {p : Char → Bool} {x : Char} {t : Str} (h : Sep p (x :: t)) : Sep p t := by
  cases t with
  | nil => trivial
  | cons y t => exact h.2

theorem sep_cons {p : Char → Bool} {x : Char} {t : Str} (h : Sep p t)
    (hx : ∀ y, t.head? = some y → p x = p y ∨ isSpace x = true ∨ isSpace y = true) : Sep p (x :: t) := by
  cases t with
  | nil => trivial
  | cons y t => exact ⟨hx y rfl, h⟩

theorem sep_blank {p : Char → Bool} {t : Str} (h : Sep p t) : Sep p (' ' :: t) :=
  sep_cons h (fun _ _ => Or.inr (Or.inl isSpace_blank))

theorem sep_append_blank {p : Char → Bool} {w t : Str} (hw : Sep p w) (ht : Sep p t) : Sep p (w ++ ' ' :: t) := by
  induction w with
  | nil => exact sep_blank ht
  | cons x w ih =>
    rw [List.cons_append]
    refine sep_cons (ih hw.tail) ?_
    cases w with
    | nil => intro y hy; simp at hy; subst hy; exact Or.inr (Or.inr isSpace_blank)
    | cons z w => intro y hy; simp at hy; subst hy; exact hw.1

theorem sep_take {p : Char → Bool} {s : Str} (h : Sep p s) (k : Nat) : Sep p (s.take k) := by
  induction s generalizing k with
  | nil => simp; trivial
  | cons x s ih =>
    cases k with
    | zero => trivial
    | succ k =>
      rw [List.take_succ_cons]
      refine sep_cons (ih h.tail k) ?_
      intro y hy
      cases s with
      | nil => simp at hy
      | cons z s =>
        cases k with
        | zero => simp at hy
        | succ k => simp at hy; subst hy; exact h.1

theorem sep_drop {p : Char → Bool} {s : Str} (h : Sep p s) (k : Nat) : Sep p (s.drop k) := by
  induction s generalizing k with
  | nil => simp; trivial
  | cons x s ih =>
    cases k with
    | zero => exact h
    | succ k => simpa using ih h.tail k

theorem sep_of_const {p : Char → Bool} {w : Str} (b : Bool) (h : ∀ c ∈ w, p c = b) : Sep p w := by
  induction w with
  | nil => trivial
  | cons x w ih =>
    refine sep_cons (ih (fun c hc => h c (by simp [hc]))) ?_
    intro y hy
    left; rw [h x (by simp), h y (List.mem_cons_of_mem _ (List.mem_of_mem_head? (by simp [hy])))]

/-- the first character after spacing is a blank or the old first character -/
theorem head_spaced (m : Str → Option Nat) (hp : Proper m) (s : Str) :
    (spaced m 0 s).head? = some ' ' ∨ (spaced m 0 s).head? = s.head? := by
  cases s with
  | nil => right; rfl
  | cons c cs =>
    cases h : m (c :: cs) with
    | some k => left; rw [spaced_match m hp _ k h]; rfl
    | none => right; simp [spaced, h]

theorem sep_spaced (p : Char → Bool) (m : Str → Option Nat) (hp : Proper m) (s : Str) (h : Sep p s) : Sep p (spaced m 0 s) := by
  revert h
  refine match_induction m hp (P := fun s => Sep p s → Sep p (spaced m 0 s)) ?_ ?_ ?_ s
  · intro _; trivial
  · intro s k hm ih h
    rw [spaced_match m hp s k hm]
    exact sep_blank (sep_append_blank (sep_take h k) (ih (sep_drop h k)))
  · intro c cs hm ih h
    have : spaced m 0 (c :: cs) = c :: spaced m 0 cs := by simp [spaced, hm]
    rw [this]
    refine sep_cons (ih h.tail) ?_
    intro y hy
    rcases head_spaced m hp cs with h' | h'
    · rw [h'] at hy; cases hy; exact Or.inr (Or.inr isSpace_blank)
    · rw [h'] at hy
      cases cs with
      | nil => cases hy
      | cons z cs => cases hy; exact h.1

theorem sep_spaced_own (p : Char → Bool) (s : Str) : Sep p (spaced (matchRun p) 0 s) := by
  refine match_induction (matchRun p) (proper_run p) (P := fun s => Sep p (spaced (matchRun p) 0 s)) trivial ?_ ?_ s
  · intro s k hm ih
    rw [spaced_match _ (proper_run p) s k hm]
    obtain ⟨rfl, hk⟩ := matchRun_some hm
    refine sep_blank (sep_append_blank ?_ ih)
    rw [(run_split p s).1]
    exact sep_of_const true (fun c hc => List.mem_takeWhile_imp hc)
  · intro c cs hm ih
    have hc := matchRun_none hm
    have : spaced (matchRun p) 0 (c :: cs) = c :: spaced (matchRun p) 0 cs := by simp [spaced, hm]
    rw [this]
    refine sep_cons ih ?_
    intro y hy
    cases cs with
    | nil => simp [spaced] at hy
    | cons z cs =>
      cases hz : matchRun p (z :: cs) with
      | some k =>
        rw [spaced_match _ (proper_run p) _ k hz] at hy
        cases hy; exact Or.inr (Or.inr isSpace_blank)
      | none =>
        simp [spaced, hz] at hy; subst hy
        left; rw [hc, matchRun_none hz]

/-- in a separated text, the whitespace pieces with a `p` character are exactly the `p` runs -/
theorem pieces_of_sep (p : Char → Bool) (hs : ∀ c, p c = true → isSpace c = false) (t : Str) (h : Sep p t) :
    (splitWs t).filter (fun w => w.any p) = runs p t := by
  have key : ∀ (t cur : Str), ((∀ c ∈ cur, p c = true) ∨ (∀ c ∈ cur, p c = false)) → (∀ c ∈ cur, isSpace c = false) →
      Sep p t → (∀ x y, cur.getLast? = some x → t.head? = some y → p x = p y ∨ isSpace y = true) →
      (splitGo cur t).filter (fun w => w.any p) = runsGo p (if cur.any p then cur else []) t := by
    intro t
    induction t with
    | nil =>
      intro cur hcur _ _ _
      simp only [splitGo, runsGo]
      rcases hcur with hcur | hcur
      · cases cur with
        | nil => rfl
        | cons c cur => simp [hcur c (by simp)]
      · have : cur.any p = false := by simpa using hcur
        rw [this]
        split <;> simp_all
    | cons c cs ih =>
      intro cur hcur hsp ht hadj
      simp only [splitGo]
      cases hc : isSpace c
      · simp only [Bool.false_eq_true, if_false]
        have hall : (∀ d ∈ cur ++ [c], p d = true) ∨ (∀ d ∈ cur ++ [c], p d = false) := by
          cases hpc : p c
          · right
            intro d hd
            rcases List.mem_append.1 hd with hd | hd
            · rcases hcur with h | h
              · obtain ⟨x, hx⟩ : ∃ x, cur.getLast? = some x := ⟨_, List.getLast?_eq_some_getLast (List.ne_nil_of_mem hd)⟩
                rcases hadj x c hx rfl with h1 | h1
                · rw [h x (List.mem_of_getLast? hx), hpc] at h1; cases h1
                · rw [hc] at h1; cases h1
              · exact h d hd
            · simp at hd; subst hd; exact hpc
          · left
            intro d hd
            rcases List.mem_append.1 hd with hd | hd
            · rcases hcur with h | h
              · exact h d hd
              · obtain ⟨x, hx⟩ : ∃ x, cur.getLast? = some x := ⟨_, List.getLast?_eq_some_getLast (List.ne_nil_of_mem hd)⟩
                rcases hadj x c hx rfl with h1 | h1
                · rw [h x (List.mem_of_getLast? hx), hpc] at h1; cases h1
                · rw [hc] at h1; cases h1
            · simp at hd; subst hd; exact hpc
        rw [ih (cur ++ [c]) hall ?_ ht.tail ?_]
        · cases hpc : p c
          · have h1 : (cur ++ [c]).any p = false := by
              rcases hall with h | h
              · have := h c (by simp); rw [hpc] at this; cases this
              · rw [List.any_eq_false]; intro d hd; simp [h d hd]
            have h2 : cur.any p = false := by simp at h1 ⊢; exact h1.1
            simp [runsGo, h1, h2, hpc]
          · have hT : ∀ d ∈ cur ++ [c], p d = true := by
              rcases hall with h | h
              · exact h
              · have := h c (by simp); rw [hpc] at this; cases this
            have h1 : (cur ++ [c]).any p = true := by simp [hpc]
            have h2 : (if cur.any p then cur else []) = cur := by
              cases cur with
              | nil => rfl
              | cons d cur => simp [hT d (by simp)]
            rw [h2]; simp [runsGo, h1, hpc]
        · intro d hd
          rcases List.mem_append.1 hd with hd | hd
          · exact hsp d hd
          · simp at hd; subst hd; exact hc
        · intro x y hx hy
          simp at hx; subst hx
          cases cs with
          | nil => cases hy
          | cons z cs =>
            cases hy
            rcases ht.1 with h | h | h
            · exact Or.inl h
            · rw [hc] at h; cases h
            · exact Or.inr h
      · simp only [if_true]
        have hpc : p c = false := by
          cases h : p c
          · rfl
          · rw [hs c h] at hc; cases hc
        have h0 := ih [] (Or.inl (by simp)) (by simp) ht.tail (by simp)
        simp only [List.any_nil, Bool.false_eq_true, if_false] at h0
        simp only [runsGo, hpc, Bool.false_eq_true, if_false]
        by_cases hnil : cur = []
        · subst hnil; simp [h0]
        · rw [if_neg hnil, List.filter_cons, h0]
          cases ha : cur.any p
          · simp
          · simp [hnil]
  exact key t [] (Or.inl (by simp)) (by simp) h (by simp)

theorem runs_append_sep (p : Char → Bool) (c : Char) (hc : p c = false) (a b : Str) : runs p (a ++ c :: b) = runs p a ++ runs p b := by
  have key : ∀ (a cur : Str), runsGo p cur (a ++ c :: b) = runsGo p cur a ++ runsGo p [] b := by
    intro a
    induction a with
    | nil => intro cur; simp only [List.nil_append, runsGo, hc, Bool.false_eq_true, if_false]; split <;> simp
    | cons d a ih =>
      intro cur
      simp only [List.cons_append, runsGo]
      split
      · exact ih _
      · split
        · exact ih _
        · rw [ih]; simp
  exact key a []

/-- the `p` runs of a sentence are those of its eojeols -/
theorem runs_splitWs (p : Char → Bool) (hs : ∀ c, p c = true → isSpace c = false) (s : Str) :
    (splitWs s).flatMap (runs p) = runs p s := by
  have key : ∀ (s cur : Str), (splitGo cur s).flatMap (runs p) = runs p (cur ++ s) := by
    intro s
    induction s with
    | nil => intro cur; simp only [splitGo]; split
             · rename_i h; subst h; rfl
             · simp
    | cons c cs ih =>
      intro cur
      simp only [splitGo]
      cases hc : isSpace c
      · simp only [Bool.false_eq_true, if_false]; rw [ih]; simp
      · have hpc : p c = false := by
          cases h : p c
          · rfl
          · rw [hs c h] at hc; cases hc
        simp only [if_true]
        rw [runs_append_sep p c hpc]
        split
        · rename_i h; subst h; rw [ih]; rfl
        · rw [List.flatMap_cons, ih]; rfl
  exact key s []

end RegexTok

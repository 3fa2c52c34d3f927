import Verif.Py.Basic
/-! Lemmas about the string primitives. -/
namespace Py

@[simp] theorem isSpace_blank : isSpace ' ' = true := by decide

theorem char_ofNat_toNat {n : Nat} (h : n.isValidChar) : (Char.ofNat n).toNat = n := by
  simp [Char.ofNat, h, Char.toNat, Char.ofNatAux, UInt32.toNat]

theorem chr_ok {n : Nat} (h : n.isValidChar) : chr n = .ok (Char.ofNat n) := by simp [chr, h]

theorem chr_toNat (c : Char) : chr c.toNat = .ok c := by
  have : c.toNat.isValidChar := c.valid
  simp [chr, this]

theorem char_ext {a b : Char} (h : a.toNat = b.toNat) : a = b := Char.toNat_inj.mp h

/-! ### split -/

theorem splitGo_nonempty (s cur : Str) : ∀ w ∈ splitGo cur s, w ≠ [] := by
  induction s generalizing cur with
  | nil => intro w; simp only [splitGo]; split <;> simp_all
  | cons c cs ih =>
    intro w; simp only [splitGo]; split
    · split
      · exact ih _ w
      · intro h; rcases List.mem_cons.1 h with h | h
        · subst h; assumption
        · exact ih _ w h
    · exact ih _ w

theorem splitGo_nospace (s cur : Str) (hc : ∀ c ∈ cur, isSpace c = false) :
    ∀ w ∈ splitGo cur s, ∀ c ∈ w, isSpace c = false := by
  induction s generalizing cur with
  | nil => intro w; simp only [splitGo]; split <;> simp_all
  | cons c cs ih =>
    intro w; simp only [splitGo]; split
    · split
      · exact ih _ (by simp) w
      · intro h; rcases List.mem_cons.1 h with h | h
        · subst h; exact hc
        · exact ih _ (by simp) w h
    · rename_i hs; apply ih; intro d hd
      rcases List.mem_append.1 hd with h | h
      · exact hc _ h
      · simp at h; subst h; simpa using hs

theorem splitGo_flatten (s cur : Str) :
    (splitGo cur s).flatten = cur ++ s.filter (fun c => !isSpace c) := by
  induction s generalizing cur with
  | nil => simp only [splitGo]; split <;> simp_all
  | cons c cs ih =>
    simp only [splitGo]; split
    · split <;> simp_all
    · rename_i hs; rw [ih]; simp [hs]

/-- pieces of `split()` are non-empty -/
theorem splitWs_nonempty {s w : Str} (h : w ∈ splitWs s) : w ≠ [] := splitGo_nonempty s [] w h
/-- pieces of `split()` contain no whitespace -/
theorem splitWs_nospace {s w : Str} (h : w ∈ splitWs s) : ∀ c ∈ w, isSpace c = false :=
  splitGo_nospace s [] (by simp) w h
/-- concatenating the pieces gives the text without its whitespace -/
theorem splitWs_flatten (s : Str) : (splitWs s).flatten = s.filter (fun c => !isSpace c) := by
  simpa [splitWs] using splitGo_flatten s []

theorem splitGo_nospace_append (w s cur : Str) (hw : ∀ c ∈ w, isSpace c = false) :
    splitGo cur (w ++ s) = splitGo (cur ++ w) s := by
  induction w generalizing cur with
  | nil => simp
  | cons c cs ih =>
    have h1 : isSpace c = false := hw c (by simp)
    simp only [List.cons_append, splitGo, h1]
    rw [if_neg (by simp), ih _ (fun d hd => hw d (by simp [hd]))]; simp

/-- a list of words that `split()` could have produced -/
def Words (ws : List Str) : Prop := ∀ w ∈ ws, w ≠ [] ∧ ∀ c ∈ w, isSpace c = false

theorem splitWs_words (s : Str) : Words (splitWs s) :=
  fun _ h => ⟨splitWs_nonempty h, splitWs_nospace h⟩

/-- `' '.join(ws).split() == ws` for non-empty whitespace-free words -/
theorem splitWs_join (ws : List Str) (h : Words ws) : splitWs (join [' '] ws) = ws := by
  match ws with
  | [] => rfl
  | [w] =>
    have := h w (by simp)
    simp only [join, splitWs]
    have e := splitGo_nospace_append w [] [] this.2
    simp at e; rw [e]; simp [splitGo, this.1]
  | w :: v :: ws =>
    have hw := h w (by simp)
    simp only [join, splitWs, List.append_assoc]
    rw [splitGo_nospace_append w _ [] hw.2]
    simp only [List.nil_append, List.singleton_append, splitGo, isSpace_blank, if_true, if_neg hw.1]
    have ih := splitWs_join (v :: ws) (fun x hx => h x (by simp [hx]))
    simp only [splitWs] at ih; rw [ih]

/-! ### strip, collapse -/

theorem all_of_dropWhile_nil {α} {p : α → Bool} {l : List α} (h : l.dropWhile p = []) : ∀ x ∈ l, p x = true := by
  induction l with
  | nil => simp
  | cons a l ih =>
    by_cases ha : p a = true
    · rw [List.dropWhile_cons_of_pos ha] at h
      intro x hx; rcases List.mem_cons.1 hx with rfl | hx
      · exact ha
      · exact ih h x hx
    · rw [List.dropWhile_cons_of_neg ha] at h; cases h


theorem rstrip_eq_self {s : Str} (h : ∀ c, s.getLast? = some c → isSpace c = false) : rstrip s = s := by
  unfold rstrip
  cases hs : s.reverse with
  | nil => simp at hs; simp [hs]
  | cons c cs =>
    have hl : s.getLast? = some c := by
      rw [List.getLast?_eq_head?_reverse, hs]; rfl
    have := h c hl
    rw [List.dropWhile_cons_of_neg (by simp [this]), ← hs, List.reverse_reverse]

theorem rstrip_append_space (s t : Str) (ht : ∀ c ∈ t, isSpace c = true) : rstrip (s ++ t) = rstrip s := by
  unfold rstrip
  rw [List.reverse_append, List.dropWhile_append_of_pos (by intro a ha; exact ht a (by simpa using ha))]

theorem rstrip_append_of_ne_nil (s t : Str) (h : rstrip t ≠ []) : rstrip (s ++ t) = s ++ rstrip t := by
  unfold rstrip at *
  rw [List.reverse_append, List.dropWhile_append]
  split
  · rename_i h'; simp at h'; exact absurd (by simpa using h') h
  · simp

theorem collapseGo_true_eq (s : Str) : collapseGo true s = collapseGo true (lstrip s) := by
  induction s with
  | nil => rfl
  | cons c cs ih =>
    by_cases hc : isSpace c = true
    · simp [collapseGo, lstrip, hc] at *; exact ih
    · simp [lstrip, hc]

/-- the tail of a collapsed text, described through its words -/
theorem rstrip_collapse_go (s cur : Str) (hcur : ∀ c ∈ cur, isSpace c = false) :
    (cur ≠ [] → rstrip (cur ++ collapseGo false s) = join [' '] (splitGo cur s)) ∧
    (cur = [] → rstrip (collapseGo true s) = join [' '] (splitGo [] s)) := by
  induction s generalizing cur with
  | nil =>
    constructor
    · intro h; simp only [collapseGo, splitGo, if_neg h, join, List.append_nil]
      apply rstrip_eq_self; intro c hc; exact hcur c (List.mem_of_getLast? hc)
    · intro h; simp [collapseGo, splitGo, join, rstrip]
  | cons c cs ih =>
    by_cases hc : isSpace c = true
    · constructor
      · intro h
        simp only [collapseGo, splitGo, hc, if_true, if_neg h, Bool.false_eq_true, if_false]
        have e := (ih [] (by simp)).2 rfl
        by_cases hn : splitGo [] cs = []
        · rw [hn] at e ⊢; simp only [join] at e ⊢
          have : rstrip (collapseGo true cs) = [] := e
          have hall : ∀ c ∈ collapseGo true cs, isSpace c = true := by
            intro d hd
            unfold rstrip at this
            rw [List.reverse_eq_nil_iff] at this
            exact all_of_dropWhile_nil this d (by simpa using hd)
          have h2 : rstrip (cur ++ (' ' :: collapseGo true cs)) = rstrip cur := by
            apply rstrip_append_space; intro d hd; rcases List.mem_cons.1 hd with h | h
            · subst h; rfl
            · exact hall d h
          rw [h2]; apply rstrip_eq_self; intro d hd; exact hcur d (List.mem_of_getLast? hd)
        · have hne : join [' '] (splitGo [] cs) ≠ [] := by
            match hq : splitGo [] cs with
            | [] => exact absurd hq hn
            | [w] => simp [join]; exact splitGo_nonempty cs [] w (by simp [hq])
            | w :: v :: ws => simp [join]
          have hcons : join [' '] (cur :: splitGo [] cs) = cur ++ [' '] ++ join [' '] (splitGo [] cs) := by
            match hq : splitGo [] cs with
            | [] => exact absurd hq hn
            | w :: ws => rfl
          rw [hcons, ← e]
          have : cur ++ ' ' :: collapseGo true cs = (cur ++ [' ']) ++ collapseGo true cs := by simp
          rw [this, rstrip_append_of_ne_nil _ _ (by rw [e]; exact hne)]
      · intro h; simp only [collapseGo, splitGo, hc, if_true]
        exact (ih [] (by simp)).2 rfl
    · simp only [Bool.not_eq_true] at hc
      constructor
      · intro h
        simp only [collapseGo, splitGo, hc, Bool.false_eq_true, if_false]
        have e := (ih (cur ++ [c]) (by intro d hd; rcases List.mem_append.1 hd with h | h
                                       · exact hcur d h
                                       · simp at h; subst h; exact hc)).1 (by simp)
        simpa using e
      · intro h
        simp only [collapseGo, splitGo, hc, Bool.false_eq_true, if_false]
        have e := (ih [c] (by intro d hd; simp at hd; subst hd; exact hc)).1 (by simp)
        simpa using e

theorem lstrip_collapse (s : Str) : lstrip (collapse s) = collapseGo true s := by
  unfold collapse
  have h : ∀ s : Str, lstrip (collapseGo true s) = collapseGo true s := by
    intro s; induction s with
    | nil => rfl
    | cons c cs ih =>
      by_cases hc : isSpace c = true
      · simp [collapseGo, hc, ih]
      · simp [collapseGo, hc, lstrip]
  cases s with
  | nil => rfl
  | cons c cs =>
    by_cases hc : isSpace c = true
    · simp [collapseGo, hc, lstrip]; simpa [lstrip] using h cs
    · simp [collapseGo, hc, lstrip]

/-- `re.sub('\s+', ' ', s).strip() == ' '.join(s.split())` -/
theorem strip_collapse (s : Str) : strip (collapse s) = join [' '] (splitWs s) := by
  unfold strip; rw [lstrip_collapse]; exact (rstrip_collapse_go s [] (by simp)).2 rfl

end Py

import Verif.Py.Str
import Verif.Spec.Unicode
/-! Filtering texts: everything of the form "replace unwanted characters by blanks, collapse, strip". -/
namespace Py
open Spec

theorem isSpace_iff (c : Char) : isSpace c = true ↔ c.toNat ∈ whitespace := by
  simp only [isSpace, whitespace, Bool.or_eq_true, Bool.and_eq_true, decide_eq_true_eq, beq_iff_eq,
    List.mem_cons, List.not_mem_nil, or_false]
  omega

theorem join_eq_blankJoin (ws : List Str) : join [' '] ws = blankJoin ws := by
  unfold blankJoin
  match ws with
  | [] => rfl
  | [w] => simp [join]
  | w :: v :: ws =>
    have := join_eq_blankJoin (v :: ws)
    unfold blankJoin at this
    simp only [join, List.intersperse, List.flatten_cons, this, List.append_assoc]

theorem mem_join {ws : List Str} {c : Char} (h : c ∈ join [' '] ws) : c = ' ' ∨ ∃ w ∈ ws, c ∈ w := by
  match ws with
  | [] => simp [join] at h
  | [w] => exact Or.inr ⟨w, by simp, by simpa [join] using h⟩
  | w :: v :: ws =>
    simp only [join, List.mem_append, List.mem_singleton] at h
    rcases h with (h | h) | h
    · exact Or.inr ⟨w, by simp, h⟩
    · exact Or.inl h
    · rcases mem_join h with h | ⟨u, hu, hc⟩
      · exact Or.inl h
      · exact Or.inr ⟨u, by simp [hu], hc⟩

theorem head?_join {ws : List Str} (h : Words ws) : (join [' '] ws).head? ≠ some ' ' := by
  match ws with
  | [] => simp [join]
  | [w] =>
    have := h w (by simp); simp only [join]; intro hh
    have := this.2 ' ' (List.mem_of_head? hh); simp at this
  | w :: v :: ws =>
    have := h w (by simp); simp only [join]
    cases w with
    | nil => exact absurd rfl this.1
    | cons c w => simp; rintro rfl; have := this.2 ' ' (by simp); simp at this

theorem join_cons {w : Str} {ws : List Str} (h : ws ≠ []) : join [' '] (w :: ws) = w ++ ' ' :: join [' '] ws := by
  cases ws with
  | nil => exact absurd rfl h
  | cons v vs => simp [join]

theorem join_ne_nil {ws : List Str} (hw : Words ws) (h : ws ≠ []) : join [' '] ws ≠ [] := by
  match ws with
  | [] => exact absurd rfl h
  | [w] => simpa [join] using (hw w (by simp)).1
  | w :: v :: ws => simp [join]

theorem getLast?_join {ws : List Str} (h : Words ws) : (join [' '] ws).getLast? ≠ some ' ' := by
  match ws with
  | [] => simp [join]
  | [w] =>
    have := h w (by simp); simp only [join]; intro hh
    have := this.2 ' ' (List.mem_of_getLast? hh); simp at this
  | w :: v :: ws =>
    have hv : Words (v :: ws) := fun x hx => h x (by simp [hx])
    rw [join_cons (by simp), List.getLast?_append, List.getLast?_cons]
    have ih := getLast?_join hv
    have hn := join_ne_nil hv (by simp)
    cases hq : (join [' '] (v :: ws)).getLast? with
    | none => simp at hq; exact absurd hq hn
    | some c => rw [hq] at ih; simpa using ih

/-- blanks inside `w ++ ' ' :: rest` are never doubled when w has none and rest is fine -/
theorem no_double_join {ws : List Str} (h : Words ws) : ¬ [' ', ' '] <:+: join [' '] ws := by
  match ws with
  | [] => simp [join]
  | [w] =>
    have := h w (by simp); simp only [join]; intro hh
    have := this.2 ' ' (hh.subset (by simp)); simp at this
  | w :: v :: ws =>
    have hv : Words (v :: ws) := fun x hx => h x (by simp [hx])
    have ih := no_double_join hv
    have hd := head?_join hv
    rw [join_cons (by simp)]
    have hw := (h w (by simp)).2
    clear h
    induction w with
    | nil =>
      simp only [List.nil_append]
      rw [List.infix_cons_iff]
      rintro (hp | hp)
      · cases hq : join [' '] (v :: ws) with
        | nil => rw [hq] at hp; simp at hp
        | cons c cs => rw [hq] at hp hd; simp at hp hd; exact hd hp.symm
      · exact ih hp
    | cons c cs ih' =>
      rw [List.cons_append, List.infix_cons_iff]
      rintro (hp | hp)
      · simp at hp
        have := hw c (by simp); rw [← hp.1] at this; simp at this
      · exact ih' (fun d hd => hw d (by simp [hd])) hp

theorem tidy_join {ws : List Str} (h : Words ws) : Tidy (join [' '] ws) where
  no_lead := head?_join h
  no_trail := getLast?_join h
  no_double := no_double_join h
  only_blank := by
    intro c hc hs
    rcases mem_join hc with h' | ⟨w, hw, hcw⟩
    · exact h'
    · have := (h w hw).2 c hcw
      rw [← isSpace_iff, this] at hs; cases hs

/-- the filter all the normalizers share -/
def keepOrBlank (p : Char → Bool) (s : Str) : Str := s.map (fun c => if p c then c else ' ')

theorem splitGo_keepOrBlank (p : Char → Bool) (s cur : Str) :
    splitGo cur (keepOrBlank p s) = runsGo (fun c => p c && !isSpace c) cur s := by
  induction s generalizing cur with
  | nil => rfl
  | cons c cs ih =>
    simp only [keepOrBlank, List.map_cons] at ih ⊢
    by_cases hp : p c = true
    · by_cases hs : isSpace c = true
      · simp only [splitGo, runsGo, hp, hs, ih, if_true, Bool.not_true, Bool.and_false, Bool.false_eq_true, if_false]
      · simp only [splitGo, runsGo, hp, hs, ih, if_true, Bool.not_false, Bool.and_true, Bool.false_eq_true, if_false]
    · simp only [splitGo, runsGo, hp, isSpace_blank, ih, if_true, Bool.false_and, Bool.false_eq_true, if_false]

theorem splitWs_keepOrBlank (p : Char → Bool) (s : Str) :
    splitWs (keepOrBlank p s) = runs (fun c => p c && !isSpace c) s := splitGo_keepOrBlank p s []

theorem strip_collapse_keepOrBlank (p : Char → Bool) (s : Str) :
    strip (collapse (keepOrBlank p s)) = blankJoin (runs (fun c => p c && !isSpace c) s) := by
  rw [strip_collapse, splitWs_keepOrBlank, join_eq_blankJoin]

theorem words_runs (p : Char → Bool) (s : Str) : Words (runs (fun c => p c && !isSpace c) s) := by
  rw [← splitWs_keepOrBlank]; exact splitWs_words _

theorem runsGo_append_of_all (p : Char → Bool) (w s cur : Str) (hw : ∀ c ∈ w, p c = true) :
    runsGo p cur (w ++ s) = runsGo p (cur ++ w) s := by
  induction w generalizing cur with
  | nil => simp
  | cons c cs ih =>
    simp only [List.cons_append, runsGo, hw c (by simp), if_true]
    rw [ih _ (fun d hd => hw d (by simp [hd]))]; simp

theorem mem_runsGo (p : Char → Bool) (s cur : Str) (hc : ∀ c ∈ cur, p c = true) :
    ∀ w ∈ runsGo p cur s, w ≠ [] ∧ ∀ c ∈ w, p c = true := by
  induction s generalizing cur with
  | nil => simp only [runsGo]; split
           · simp
           · intro w hw; simp at hw; subst hw; exact ⟨by assumption, hc⟩
  | cons c cs ih =>
    simp only [runsGo]; split
    · rename_i hp; apply ih; intro d hd; rcases List.mem_append.1 hd with h | h
      · exact hc d h
      · simp at h; subst h; exact hp
    · split
      · exact ih [] (by simp)
      · intro w hw; rcases List.mem_cons.1 hw with h | h
        · subst h; exact ⟨by assumption, hc⟩
        · exact ih [] (by simp) w h

theorem runs_blankJoin (p : Char → Bool) (hb : p ' ' = false) (ws : List Str)
    (h : ∀ w ∈ ws, w ≠ [] ∧ ∀ c ∈ w, p c = true) : runs p (blankJoin ws) = ws := by
  rw [← join_eq_blankJoin]
  match ws with
  | [] => rfl
  | [w] =>
    have hw := h w (by simp)
    have := runsGo_append_of_all p w [] [] hw.2
    simp only [join, runs]; simp at this; rw [this]; simp [runsGo, hw.1]
  | w :: v :: ws =>
    have hw := h w (by simp)
    rw [join_cons (by simp), runs, runsGo_append_of_all p w _ [] hw.2]
    simp only [List.nil_append, runsGo, hb, Bool.false_eq_true, if_false, if_neg hw.1]
    have ih := runs_blankJoin p hb (v :: ws) (fun x hx => h x (by simp [hx]))
    rw [← join_eq_blankJoin] at ih
    simp only [runs] at ih; rw [ih]

/-- the shared normalizer is idempotent -/
theorem blankJoin_runs_idem (p : Char → Bool) (hb : p ' ' = false) (s : Str) :
    blankJoin (runs p (blankJoin (runs p s))) = blankJoin (runs p s) := by
  rw [runs_blankJoin p hb (runs p s) (mem_runsGo p s [] (by simp))]

theorem runsGo_flatten (p : Char → Bool) (s cur : Str) : (runsGo p cur s).flatten = cur ++ s.filter p := by
  induction s generalizing cur with
  | nil => simp only [runsGo]; split <;> simp_all
  | cons c cs ih =>
    simp only [runsGo]; split
    · rename_i hp; rw [ih]; simp [hp]
    · rename_i hp; split <;> simp_all

theorem runs_flatten (p : Char → Bool) (s : Str) : (runs p s).flatten = s.filter p := by
  simpa [runs] using runsGo_flatten p s []

theorem filter_blankJoin (p : Char → Bool) (hb : p ' ' = false) (ws : List Str)
    (h : ∀ w ∈ ws, w ≠ [] ∧ ∀ c ∈ w, p c = true) : (blankJoin ws).filter p = ws.flatten := by
  rw [← runs_flatten p, runs_blankJoin p hb ws h]

theorem char_le_iff (a b : Char) : a ≤ b ↔ a.toNat ≤ b.toNat := Iff.rfl

theorem mem_runs (p : Char → Bool) (s : Str) : ∀ w ∈ runs p s, w ≠ [] ∧ ∀ c ∈ w, p c = true :=
  mem_runsGo p s [] (by simp)

theorem tidy_blankJoin_runs (p : Char → Bool) (hp : ∀ c, p c = true → isSpace c = false) (s : Str) :
    Tidy (blankJoin (runs p s)) := by
  rw [← join_eq_blankJoin]
  exact tidy_join fun w hw => ⟨(mem_runs p s w hw).1, fun c hc => hp c ((mem_runs p s w hw).2 c hc)⟩

theorem mem_blankJoin_runs (p : Char → Bool) (s : Str) {c : Char} (h : c ∈ blankJoin (runs p s)) :
    c = ' ' ∨ p c = true := by
  rw [← join_eq_blankJoin] at h
  rcases mem_join h with h | ⟨w, hw, hc⟩
  · exact Or.inl h
  · exact Or.inr ((mem_runs p s w hw).2 c hc)

end Py

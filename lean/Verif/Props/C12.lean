import Verif.Props.C09_C10
import Mathlib.Data.List.Forall2
import Mathlib.Data.List.Induction
/-! C12: normalize_sent_for_lrgraph. -/
namespace Props
open Py Spec Hangle Normalizer

/-- characters that survive: Hangul, letters, digits, `, . ? !` and quotes -/
abbrev ForLR (c : Char) : Bool := decide (Asked true true true false c)

/-- `w` is the longest prefix of `p` that ends in Hangul (empty if `p` has no Hangul) -/
def CutAtHangul (p w : Str) : Prop :=
  ∃ rest, p = w ++ rest ∧ (∀ c ∈ rest, ¬ Korean c) ∧ (w = [] ∨ ∃ c, w.getLast? = some c ∧ Korean c)

private theorem cut_unique {p w v : Str} (h : CutAtHangul p w) (h' : CutAtHangul p v) : w = v := by
  obtain ⟨r, e, hr, hw⟩ := h
  obtain ⟨r', e', hr', hw'⟩ := h'
  have key : ∀ {w v r r' : Str}, w ++ r = v ++ r' → (∀ c ∈ r, ¬ Korean c) →
      (v = [] ∨ ∃ c, v.getLast? = some c ∧ Korean c) → v.length ≤ w.length := by
    intro w v r r' e hr hv
    rcases hv with rfl | ⟨c, hc, hk⟩
    · simp
    · apply Nat.le_of_not_lt
      intro hlt
      have hne : v ≠ [] := by rintro rfl; simp at hc
      have hc' : v[v.length - 1]? = some c := by rw [← hc, List.getLast?_eq_getElem?]
      have : (w ++ r)[v.length - 1]? = some c := by
        rw [e, List.getElem?_append_left (by have := List.length_pos_iff.2 hne; omega)]; exact hc'
      rw [List.getElem?_append_right (by omega)] at this
      exact hr c (List.mem_of_getElem? this) hk
  have l1 := key (e.symm.trans e') hr hw'
  have l2 := key (e'.symm.trans e) hr' hw
  exact (List.append_inj (e.symm.trans e') (by omega)).1

private theorem filter_range_last (s : Str) (p : Char → Bool) :
    match ((List.range s.length).filter (fun i => (s[i]?).any p)).getLast? with
    | none => ∀ c ∈ s, p c = false
    | some i => ∃ c, (s.take (i + 1)).getLast? = some c ∧ p c = true ∧ ∀ d ∈ s.drop (i + 1), p d = false := by
  induction s using List.reverseRecOn with
  | nil => simp
  | append_singleton s c ih =>
    rw [List.length_append, List.length_singleton, List.range_succ, List.filter_append]
    have hcong : (List.range s.length).filter (fun i => ((s ++ [c])[i]?).any p) =
        (List.range s.length).filter (fun i => (s[i]?).any p) := by
      apply List.filter_congr
      intro i hi
      rw [List.getElem?_append_left (by simpa using hi)]
    rw [hcong]
    by_cases hp : p c = true
    · have : List.filter (fun i => ((s ++ [c])[i]?).any p) [s.length] = [s.length] := by simp [hp]
      rw [this, List.getLast?_append]
      simp [hp, List.take_of_length_le]
    · have : List.filter (fun i => ((s ++ [c])[i]?).any p) [s.length] = [] := by simp [hp]
      rw [this, List.append_nil]
      revert ih
      cases hi : ((List.range s.length).filter (fun i => (s[i]?).any p)).getLast? with
      | none =>
        intro ih d hd
        rcases List.mem_append.1 hd with h | h
        · exact ih d h
        · simp at h; subst h; simpa using hp
      | some i =>
        rintro ⟨d, h1, h2, h3⟩
        have hlt : i < s.length := by
          have := List.mem_of_getLast? hi
          simp at this; exact this.1
        refine ⟨d, by rw [List.take_append_of_le_length (by omega)]; exact h1, h2, ?_⟩
        rw [List.drop_append_of_le_length (by omega)]
        intro e he
        rcases List.mem_append.1 he with h | h
        · exact h3 e h
        · simp at h; subst h; simpa using hp

private theorem remain_cut (p : Str) (hp : ∀ c ∈ p, isSpace c = false) : CutAtHangul p (remainHangleOnLast p) := by
  have h := filter_range_last p hangleClass
  unfold remainHangleOnLast
  dsimp only
  revert h
  cases hm : ((List.range p.length).filter (fun i => (p[i]?).any hangleClass)).getLast? with
  | none =>
    intro h
    refine ⟨p, by simp, ?_, Or.inl rfl⟩
    intro c hc; have := h c hc; rw [hangleClass_iff] at this; simpa using this
  | some i =>
    rintro ⟨c, h1, h2, h3⟩
    have hs : strip (p.take (i + 1)) = p.take (i + 1) := by
      have hl : lstrip (p.take (i + 1)) = p.take (i + 1) := by
        unfold lstrip
        cases ht : p.take (i + 1) with
        | nil => rfl
        | cons d ds =>
          have : d ∈ p := List.mem_of_mem_take (i := i + 1) (by rw [ht]; simp)
          simp [hp d this]
      unfold strip; rw [hl]
      exact rstrip_eq_self (fun d hd => hp d (List.mem_of_mem_take (List.mem_of_getLast? hd)))
    simp only [hs]
    refine ⟨p.drop (i + 1), by simp, ?_, Or.inr ⟨c, h1, ?_⟩⟩
    · intro d hd; have := h3 d hd; rw [hangleClass_iff] at this; simpa using this
    · rw [hangleClass_iff] at h2; simpa using h2

/-- C12 (a): the result is the surviving runs of the text, each cut at its last Hangul character, empty ones
    dropped, joined by single blanks in the original order. -/
theorem C12_pieces (s : Str) :
    ∃ ws, List.Forall₂ CutAtHangul (runs ForLR s) ws ∧
      normalizeSentForLrgraph s = blankJoin (ws.filter (fun w => w ≠ [])) := by
  have hf := asked_filter true true true false s
  simp only [Bool.not_true, Bool.false_eq_true, if_false, Bool.not_false, if_true] at hf
  have hsp : splitWs (blankOut symbolClass (blankOut (fun c => !textClass c) s)) = runs ForLR s := by
    rw [hf, splitWs_keepOrBlank, asked_nospace]
  refine ⟨(runs ForLR s).map remainHangleOnLast, ?_, ?_⟩
  · rw [List.forall₂_map_right_iff]
    apply List.forall₂_same.2
    intro p hp
    have := mem_runs ForLR s p hp
    exact remain_cut p (fun c hc => not_space_of_asked (by simpa [ForLR] using this.2 c hc))
  · unfold normalizeSentForLrgraph
    simp only [hsp]
    split
    · rename_i h; rw [h]; rfl
    · rw [join_eq_blankJoin]

private theorem forall₂_right {R : Str → Str → Prop} {l m : List Str} (h : List.Forall₂ R l m) {w : Str} (hw : w ∈ m) :
    ∃ p ∈ l, R p w := by
  induction h with
  | nil => cases hw
  | cons hr _ ih =>
    rcases List.mem_cons.1 hw with rfl | hw
    · exact ⟨_, by simp, hr⟩
    · obtain ⟨p, hp, h⟩ := ih hw; exact ⟨p, by simp [hp], h⟩

private theorem cut_id {w : Str} (h : ∃ c, w.getLast? = some c ∧ Korean c) : CutAtHangul w w :=
  ⟨[], by simp, by simp, Or.inr h⟩

/-- C12 (b): every piece of the result ends in Hangul and has no symbol; the result is tidy and a fixed point. -/
theorem C12_result (s : Str) :
    (∀ w ∈ splitWs (normalizeSentForLrgraph s), (∃ c, w.getLast? = some c ∧ Korean c) ∧
      (∀ c ∈ w, ForLR c = true) ∧ ∃ p ∈ runs ForLR s, w <+: p) ∧
    Tidy (normalizeSentForLrgraph s) ∧
    normalizeSentForLrgraph (normalizeSentForLrgraph s) = normalizeSentForLrgraph s := by
  obtain ⟨ws, h1, h2⟩ := C12_pieces s
  have hw : ∀ w ∈ ws.filter (fun w => w ≠ []), (∃ c, w.getLast? = some c ∧ Korean c) ∧
      (∀ c ∈ w, ForLR c = true) ∧ ∃ p ∈ runs ForLR s, w <+: p := by
    intro w hw
    simp only [List.mem_filter, decide_eq_true_eq] at hw
    obtain ⟨p, hp, rest, e, hr, hl⟩ := forall₂_right h1 hw.1
    refine ⟨hl.resolve_left hw.2, fun c hc => (mem_runs ForLR s p hp).2 c (by rw [e]; simp [hc]), p, hp, rest, e.symm⟩
  have hwords : ∀ w ∈ ws.filter (fun w => w ≠ []), w ≠ [] ∧ ∀ c ∈ w, ForLR c = true := by
    intro w h
    exact ⟨by simpa using (List.mem_filter.1 h).2, (hw w h).2.1⟩
  have hW : Words (ws.filter (fun w => w ≠ [])) := fun w h =>
    ⟨(hwords w h).1, fun c hc => not_space_of_asked (by simpa [ForLR] using (hwords w h).2 c hc)⟩
  refine ⟨?_, ?_, ?_⟩
  · rw [h2, ← join_eq_blankJoin, splitWs_join _ hW]; exact hw
  · rw [h2, ← join_eq_blankJoin]; exact tidy_join hW
  · obtain ⟨vs, h3, h4⟩ := C12_pieces (normalizeSentForLrgraph s)
    rw [h4]
    have hb : ForLR ' ' = false := by decide
    rw [h2, runs_blankJoin ForLR hb _ hwords] at h3
    have : vs = ws.filter (fun w => w ≠ []) := by
      have hall : ∀ w ∈ ws.filter (fun w => w ≠ []), CutAtHangul w w := fun w h => cut_id (hw w h).1
      generalize ws.filter (fun w => w ≠ []) = us at h3 hall
      clear h4
      induction h3 with
      | nil => rfl
      | cons hr _ ih =>
        rw [cut_unique hr (hall _ (by simp)), ih (fun w h => hall w (by simp [h]))]
    rw [this, h2]
    congr 1
    rw [List.filter_eq_self]
    intro w h; exact (List.mem_filter.1 h).2

example : normalizeSentForLrgraph "(뉴스)오늘은 abc 3월1일입니다... ok!".toList = "뉴스 오늘은 3월1일입니다".toList := by
  decide +kernel

end Props

import Verif.Model.EojeolCounter
import Verif.Py.Str
import Mathlib.Tactic.Ring
import Mathlib.Tactic.Linarith
import Mathlib.Algebra.Order.Ring.Nat
/-! Lemmas about the EojeolCounter model. -/
namespace EC
open Py

/-- occurrences of `e` among the eojeols of the preprocessed sentences -/
abbrev occ (p : Params) (sents : List Str) (e : Str) : Nat := (sents.flatMap (fun s => splitWs (p.preprocess s))).count e

theorem getD_foldl_addEojeol (p : Params) (ws : List Str) (hw : ∀ w ∈ ws, w ≠ []) (d : Dict Str Int) (e : Str) :
    Dict.getD (ws.foldl (addEojeol p) d) e 0 = Dict.getD d e 0 + if (e.length : Int) ≤ p.maxLength then (ws.count e : Int) else 0 := by
  induction ws generalizing d with
  | nil => simp
  | cons w ws ih =>
    rw [List.foldl_cons, ih (fun x hx => hw x (by simp [hx]))]
    have hwne : w ≠ [] := hw w (by simp)
    unfold addEojeol
    by_cases hl : (w.length : Int) > p.maxLength
    · rw [if_pos (Or.inr hl), List.count_cons]
      by_cases hwe : w = e
      · subst hwe; rw [if_neg (by omega), if_neg (by omega)]
      · simp [hwe]
    · rw [if_neg (by rintro (h | h); exact hwne h; exact hl h), Dict.getD_addI, List.count_cons]
      by_cases hwe : w = e
      · subst hwe; rw [if_pos rfl, if_pos (by omega), if_pos (by omega)]; simp; omega
      · simp [hwe]

theorem foldl_addEojeol_inv (p : Params) (ws : List Str) (d : Dict Str Int) (h : d.WF ∧ ∀ kv ∈ d, 1 ≤ kv.2 ∧ kv.1 ≠ []) :
    (ws.foldl (addEojeol p) d).WF ∧ ∀ kv ∈ ws.foldl (addEojeol p) d, 1 ≤ kv.2 ∧ kv.1 ≠ [] := by
  induction ws generalizing d with
  | nil => exact h
  | cons w ws ih =>
    rw [List.foldl_cons]
    apply ih
    unfold addEojeol
    split
    · exact h
    · rename_i hw
      refine ⟨h.1.addI _ _, ?_⟩
      rintro ⟨k, v⟩ hm
      rw [Dict.mem_iff_get? (h.1.addI _ _), Dict.get?_addI] at hm
      split at hm
      · rename_i hk; subst hk
        cases hm
        refine ⟨?_, fun e => hw (Or.inl e)⟩
        show 1 ≤ Dict.getD d w 0 + 1
        cases hg : Dict.get? d w with
        | none => simp [Dict.getD, hg]
        | some v => have := (h.2 _ (Dict.mem_of_get? hg)).1; simp [Dict.getD, hg]; omega
      · exact h.2 _ (Dict.mem_of_get? hm)

theorem filterMin_inv {m : Int} {d : Dict Str Int} (h : d.WF ∧ ∀ kv ∈ d, 1 ≤ kv.2 ∧ kv.1 ≠ []) :
    (filterMin m d).WF ∧ ∀ kv ∈ filterMin m d, 1 ≤ kv.2 ∧ kv.1 ≠ [] :=
  ⟨h.1.filter _, fun kv hm => h.2 kv (List.mem_filter.1 hm).1⟩

theorem countSent_inv (p : Params) (d : Dict Str Int) (si : Str × Nat) (h : d.WF ∧ ∀ kv ∈ d, 1 ≤ kv.2 ∧ kv.1 ≠ []) :
    (countSent p d si).WF ∧ ∀ kv ∈ countSent p d si, 1 ≤ kv.2 ∧ kv.1 ≠ [] := by
  unfold countSent
  apply foldl_addEojeol_inv
  split
  · exact filterMin_inv h
  · exact h

theorem foldl_countSent_inv (p : Params) (l : List (Str × Nat)) (d : Dict Str Int) (h : d.WF ∧ ∀ kv ∈ d, 1 ≤ kv.2 ∧ kv.1 ≠ []) :
    (l.foldl (countSent p) d).WF ∧ ∀ kv ∈ l.foldl (countSent p) d, 1 ≤ kv.2 ∧ kv.1 ≠ [] := by
  induction l generalizing d with
  | nil => exact h
  | cons a l ih => exact ih _ (countSent_inv p d a h)

theorem getD_filterMin {m : Int} {d : Dict Str Int} (h : d.WF) (e : Str) :
    Dict.getD (filterMin m d) e 0 = if m ≤ Dict.getD d e 0 then Dict.getD d e 0 else 0 := by
  unfold filterMin Dict.getD
  rw [Dict.get?_filter h]
  cases hg : Dict.get? d e with
  | none => simp
  | some v => simp only [Option.filter]; by_cases hv : m ≤ v <;> simp [hv]

theorem getD_nonneg {d : Dict Str Int} (h : ∀ kv ∈ d, 1 ≤ kv.2 ∧ kv.1 ≠ []) (e : Str) : 0 ≤ Dict.getD d e 0 := by
  cases hg : Dict.get? d e with
  | none => simp [Dict.getD, hg]
  | some v => have := (h _ (Dict.mem_of_get? hg)).1; simp [Dict.getD, hg]; omega

/-- the main count invariant: the table lies between the true count and the true count minus what checkpoints lost -/
theorem foldl_countSent_bounds (p : Params) (sents : List Str) (k : Nat) (d : Dict Str Int)
    (h : d.WF ∧ ∀ kv ∈ d, 1 ≤ kv.2 ∧ kv.1 ≠ []) (e : Str) (he : (e.length : Int) ≤ p.maxLength) :
    Dict.getD ((sents.zipIdx k).foldl (countSent p) d) e 0 ≤ Dict.getD d e 0 + (occ p sents e : Int) ∧
    Dict.getD d e 0 + (occ p sents e : Int) ≤ Dict.getD ((sents.zipIdx k).foldl (countSent p) d) e 0 +
      (p.minCount - 1) * (((List.range' k sents.length).countP (atCheckpoint p) : Nat) : Int) := by
  induction sents generalizing k d with
  | nil => simp [occ]
  | cons s ss ih =>
    rw [List.zipIdx_cons, List.foldl_cons]
    obtain ⟨h1, h2⟩ := ih (k + 1) (countSent p d (s, k)) (countSent_inv p d (s, k) h)
    have hc : Dict.getD (countSent p d (s, k)) e 0 =
        Dict.getD (if atCheckpoint p k then filterMin p.minCount d else d) e 0 + ((splitWs (p.preprocess s)).count e : Int) := by
      unfold countSent
      rw [getD_foldl_addEojeol p _ (fun w hw => splitWs_nonempty hw), if_pos he]
    have hocc : occ p (s :: ss) e = (splitWs (p.preprocess s)).count e + occ p ss e := by
      simp [occ, List.flatMap_cons, List.count_append]
    have hr : (List.range' k (ss.length + 1)).countP (atCheckpoint p) =
        (if atCheckpoint p k then 1 else 0) + (List.range' (k + 1) ss.length).countP (atCheckpoint p) := by
      rw [List.range'_succ, List.countP_cons]; omega
    have hd0 := getD_nonneg h.2 e
    rw [List.length_cons, hr]
    by_cases hcp : atCheckpoint p k = true
    · have hm : p.minCount > 1 := by
        simp only [atCheckpoint, Bool.and_eq_true, decide_eq_true_eq] at hcp; exact hcp.1.1.1
      rw [if_pos hcp, getD_filterMin h.1] at hc
      rw [if_pos hcp]
      generalize (List.range' (k + 1) ss.length).countP (atCheckpoint p) = N at *
      have hexp : (p.minCount - 1) * ((1 + N : Nat) : Int) = (p.minCount - 1) + (p.minCount - 1) * (N : Int) := by
        push_cast; ring
      rw [hexp]
      split at hc <;> constructor <;> omega
    · rw [if_neg hcp] at hc
      rw [if_neg hcp]
      simp only [Nat.zero_add]
      constructor <;> omega

theorem foldl_countSent_long (p : Params) (sents : List Str) (k : Nat) (d : Dict Str Int)
    (h : d.WF ∧ ∀ kv ∈ d, 1 ≤ kv.2 ∧ kv.1 ≠ []) (e : Str) (he : ¬ (e.length : Int) ≤ p.maxLength) (hd : Dict.getD d e 0 = 0) :
    Dict.getD ((sents.zipIdx k).foldl (countSent p) d) e 0 = 0 := by
  induction sents generalizing k d with
  | nil => simpa using hd
  | cons s ss ih =>
    rw [List.zipIdx_cons, List.foldl_cons]
    apply ih _ _ (countSent_inv p d _ h)
    unfold countSent
    rw [getD_foldl_addEojeol p _ (fun w hw => splitWs_nonempty hw), if_neg he]
    dsimp only
    split
    · rw [getD_filterMin h.1, hd]; simp
    · rw [hd]; simp

theorem countP_checkpoints (p : Params) (n : Nat) (hm : p.minCount > 1) (c : Nat) (hc : 0 < c) (hpc : p.checkpoint = c) :
    (List.range' 0 n).countP (atCheckpoint p) = (n - 1) / c := by
  induction n with
  | zero => simp
  | succ n ih =>
    rw [List.range'_1_concat, List.countP_append, ih]
    cases n with
    | zero => simp [atCheckpoint]
    | succ n =>
      have : atCheckpoint p (n + 1) = decide (c ∣ n + 1) := by
        rw [Bool.eq_iff_iff]
        simp only [atCheckpoint, Bool.and_eq_true, decide_eq_true_eq, hpc, Nat.dvd_iff_mod_eq_zero]
        omega
      simp only [Nat.add_sub_cancel, Nat.succ_div, List.countP_singleton, Nat.zero_add, this, decide_eq_true_eq]

theorem sumI_nonneg {d : Dict Str Int} (h : ∀ kv ∈ d, 0 ≤ kv.2) : 0 ≤ Dict.sumI d := by
  unfold Dict.sumI Dict.values
  induction d with
  | nil => simp
  | cons a d ih =>
    have := ih (fun kv hm => h kv (by simp [hm]))
    have := h a (by simp)
    simp; omega

theorem sumI_filter_le {d : Dict Str Int} (q : Str × Int → Bool) (h : ∀ kv ∈ d, 0 ≤ kv.2) : Dict.sumI (d.filter q) ≤ Dict.sumI d := by
  induction d with
  | nil => simp
  | cons a d ih =>
    have ih := ih (fun kv hm => h kv (by simp [hm]))
    have ha := h a (by simp)
    unfold Dict.sumI Dict.values at *
    rw [List.filter_cons]
    split
    · simp; omega
    · simp; omega

theorem saveLe_totalPre : TotalPre saveLe := by
  constructor
  · rintro ⟨a, n⟩ ⟨b, m⟩ ⟨c, l⟩ h h'
    simp only [saveLe] at *
    split at h <;> split at h' <;> (try split at h) <;> (try split at h') <;>
      first
      | (rw [if_pos (by omega)])
      | (cases h; done)
      | (cases h')
      | (rw [if_neg (by omega), if_neg (by omega)]; exact strLe_trans _ _ _ h h')
  · rintro ⟨a, n⟩ ⟨b, m⟩
    simp only [saveLe]
    by_cases h1 : n > m
    · simp [h1]
    · by_cases h2 : m > n
      · simp [h2]
      · simp [h1, h2, strLe_total]

end EC

import Verif.Props.C34_C36
import Mathlib.Tactic.Linarith
/-! C34: the constructor's parameters. -/
namespace Props
open Py VZ

/-- **C34** The constructor accepts exactly `0 <= min_df < 1` and `0 < max_df <= 1`. With accepted parameters and the default `min_tf`, `max_tf` (and fewer documents than
    `max_tf`): a term of all documents is kept iff `max_df` is 1; with `max_df` 1 and `min_df` 0 every term is kept; and a corpus of fewer than `1 / max_df` documents
    always gives the empty vocabulary. -/
theorem C34_parameters (p : VZ.Params) :
    (checkParams p = .ok () ↔ (0 ≤ p.minDf ∧ p.minDf < 1) ∧ (0 < p.maxDf ∧ p.maxDf ≤ 1)) ∧
    (checkParams p ≠ .ok () → checkParams p = .error .assertion) ∧
    (checkParams p = .ok () → ∀ docs s, fit p docs = .ok s →
      ((docs.length : Rat) * p.maxDf < 1 → s.idx2vocab = []) ∧
      (p.minTf ≤ 0 → (docs.length : Int) ≤ p.maxTf →
        (∀ t, docFreq p docs t = docs.length → 0 < docs.length → (t ∈ s.idx2vocab ↔ p.maxDf = 1)) ∧
        (p.minDf = 0 → p.maxDf = 1 → ∀ t, t ∈ s.idx2vocab ↔ 0 < docFreq p docs t))) := by
  have hiff : checkParams p = .ok () ↔ (0 ≤ p.minDf ∧ p.minDf < 1) ∧ (0 < p.maxDf ∧ p.maxDf ≤ 1) := by
    unfold checkParams
    by_cases h : 0 ≤ p.minDf ∧ p.minDf < 1 ∧ 0 < p.maxDf ∧ p.maxDf ≤ 1
    · rw [if_pos h]
      exact ⟨fun _ => ⟨⟨h.1, h.2.1⟩, h.2.2⟩, fun _ => rfl⟩
    · rw [if_neg h]
      exact ⟨fun h' => by (cases h'), fun h' => absurd ⟨h'.1.1, h'.1.2, h'.2⟩ h⟩
  refine ⟨hiff, fun h => ?_, fun hok docs s hfit => ?_⟩
  · unfold checkParams at h ⊢
    split at h
    · exact absurd rfl h
    · rename_i h'; rw [if_neg h']
  · obtain ⟨⟨a1, a2⟩, a3, a4⟩ := hiff.1 hok
    obtain ⟨hsel, -⟩ := C34_selection p docs s hfit
    have hfr : ∀ t, docFreq p docs t ≤ docs.length := fun t => List.countP_le_length
    refine ⟨fun hlt => ?_, fun hmin hmax => ⟨fun t hall hpos => ?_, fun h0 h1 t => ?_⟩⟩
    · refine List.eq_nil_iff_forall_not_mem.2 (fun t ht => ?_)
      obtain ⟨q1, -, q2, -⟩ := (hsel t).1 ht
      rw [Int.le_floor] at q2
      have q1' : (1 : Rat) ≤ ((docFreq p docs t : Int) : Rat) := by exact_mod_cast q1
      linarith
    · rw [hsel, hall]
      have hposr : (0 : Rat) < docs.length := by exact_mod_cast hpos
      constructor
      · rintro ⟨-, -, q, -⟩
        rw [Int.le_floor] at q
        have q : (docs.length : Rat) ≤ docs.length * p.maxDf := by exact_mod_cast q
        by_contra hne
        have : p.maxDf < 1 := lt_of_le_of_ne a4 hne
        nlinarith
      · intro h1
        refine ⟨hpos, ?_, ?_, by omega, by omega⟩
        · have : ⌊(docs.length : Rat) * p.minDf⌋ ≤ ⌊((docs.length : Int) : Rat)⌋ := Int.floor_le_floor (by push_cast; nlinarith)
          rwa [Int.floor_intCast] at this
        · rw [h1, mul_one, Int.le_floor]; push_cast; exact le_refl _
    · rw [hsel, h0, h1, mul_zero, mul_one, Int.floor_zero]
      have := hfr t
      refine ⟨fun h => h.1, fun h => ⟨h, by omega, ?_, by omega, by omega⟩⟩
      rw [Int.le_floor]; push_cast; exact_mod_cast hfr t

example : checkParams {} = .ok () ∧ checkParams { maxDf := 1/10 } = .ok () ∧ checkParams { minDf := 1 } = .error .assertion ∧
    fit { maxDf := 1/10 } ["a b".toList, "a".toList] = .ok ⟨[], [], 0⟩ := by
  refine ⟨by decide +kernel, by decide +kernel, by decide +kernel, by decide +kernel⟩

end Props

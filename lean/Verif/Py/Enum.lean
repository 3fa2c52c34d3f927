import Verif.Py.Dict
import Verif.Py.Sort
/-! Enumerating a duplicate-free list of strings as a dict from string to index. -/
namespace Py

theorem keys_zipIdx {α : Type} (l : List α) (k : Nat) : (l.zipIdx k).map (·.1) = l := by
  induction l generalizing k with
  | nil => rfl
  | cons a l ih => simp [ih]

/-- enumerating a duplicate-free list as a dict -/
theorem coding_enum (l : List Str) (hnd : l.Nodup) :
    Dict.ofList l.zipIdx = l.zipIdx ∧ (sorted (fun a b => decide (a.2 ≤ b.2)) l.zipIdx).map (·.1) = l ∧
    (∀ t i, Dict.get? l.zipIdx t = some i ↔ l[i]? = some t) := by
  have hwf : Dict.WF l.zipIdx := by
    unfold Dict.WF Dict.keys; rw [keys_zipIdx]; exact hnd
  refine ⟨Dict.ofList_eq_self _ hwf, ?_, ?_⟩
  · rw [sorted_of_pairwise, keys_zipIdx]
    have : ∀ (l : List Str) (k : Nat), (l.zipIdx k).Pairwise (fun a b => decide (a.2 ≤ b.2) = true) := by
      intro l
      induction l with
      | nil => intro k; exact .nil
      | cons a l ih =>
        intro k
        rw [List.zipIdx_cons]
        refine List.pairwise_cons.2 ⟨?_, ih _⟩
        rintro ⟨x, i⟩ hm
        have := List.mem_zipIdx hm
        simp; omega
    exact this l 0
  · intro t i
    rw [← Dict.mem_iff_get? hwf]
    rw [List.mem_zipIdx_iff_getElem?]

end Py

import Verif.Py.Dict
/-!
Integer-valued dictionaries: `d[k] = d.get(k, 0) + n`, sums of values.
-/
namespace Py.Dict
variable {κ : Type} [DecidableEq κ]

/-- `d[k] = d.get(k, 0) + n` for an int dictionary (`d[k] += n` on a `defaultdict(int)`) -/
abbrev addI (d : Dict κ Int) (k : κ) (n : Int) : Dict κ Int := set d k (getD d k 0 + n)

/-- `sum(d.values())` -/
def sumI (d : Dict κ Int) : Int := (values d).sum

theorem get?_addI (d : Dict κ Int) (k k' : κ) (n : Int) :
    get? (addI d k n) k' = if k = k' then some (getD d k' 0 + n) else get? d k' := by
  rw [addI, get?_set]; split
  · rename_i h; subst h; rfl
  · rfl

theorem getD_addI (d : Dict κ Int) (k k' : κ) (n : Int) :
    getD (addI d k n) k' 0 = getD d k' 0 + if k = k' then n else 0 := by
  rw [getD, get?_addI]; split <;> simp

theorem WF.addI {d : Dict κ Int} (h : WF d) (k : κ) (n : Int) : WF (addI d k n) := h.set _ _

theorem getD_foldl_addI {β} (xs : List β) (key : β → κ) (w : β → Int) (d : Dict κ Int) (k : κ) :
    getD (xs.foldl (fun d x => addI d (key x) (w x)) d) k 0 =
      getD d k 0 + ((xs.filter (fun x => key x = k)).map w).sum := by
  induction xs generalizing d with
  | nil => simp
  | cons x xs ih =>
    rw [List.foldl_cons, ih, getD_addI]
    by_cases h : key x = k
    · simp [h]; omega
    · simp [h]

theorem WF.foldl_addI {β} (xs : List β) (key : β → κ) (w : β → Int) {d : Dict κ Int} (h : WF d) :
    WF (xs.foldl (fun d x => Dict.addI d (key x) (w x)) d) := by
  induction xs generalizing d with
  | nil => exact h
  | cons x xs ih => exact ih (h.addI _ _)

theorem mem_keys_foldl_addI {β} (xs : List β) (key : β → κ) (w : β → Int) (d : Dict κ Int) (k : κ) :
    k ∈ keys (xs.foldl (fun d x => addI d (key x) (w x)) d) ↔ k ∈ keys d ∨ ∃ x ∈ xs, key x = k := by
  induction xs generalizing d with
  | nil => simp
  | cons x xs ih =>
    rw [List.foldl_cons, ih, mem_keys_set]
    constructor
    · rintro ((rfl | h) | ⟨y, hy, e⟩)
      · exact Or.inr ⟨x, by simp, rfl⟩
      · exact Or.inl h
      · exact Or.inr ⟨y, by simp [hy], e⟩
    · rintro (h | ⟨y, hy, e⟩)
      · exact Or.inl (Or.inr h)
      · rcases List.mem_cons.1 hy with rfl | hy
        · exact Or.inl (Or.inl e.symm)
        · exact Or.inr ⟨y, hy, e⟩

/-- two dictionaries with the same lookups hold the same entries, in some order -/
theorem perm_of_get? {ν : Type} [DecidableEq ν] {d e : Dict κ ν} (hd : WF d) (he : WF e)
    (h : ∀ k, get? d k = get? e k) : d.Perm e := by
  have nd : ∀ {d : Dict κ ν}, WF d → d.Nodup := by
    intro d hd
    induction d with
    | nil => exact List.nodup_nil
    | cons a d ih =>
      simp only [WF, keys, List.map_cons, List.nodup_cons] at hd
      rw [List.nodup_cons]
      exact ⟨fun hm => hd.1 (List.mem_map.2 ⟨a, hm, rfl⟩), ih hd.2⟩
  rw [List.perm_iff_count]
  intro a
  obtain ⟨k, v⟩ := a
  rw [(nd hd).count, (nd he).count]
  have : (k, v) ∈ d ↔ (k, v) ∈ e := by rw [mem_iff_get? hd, mem_iff_get? he, h]
  by_cases hm : (k, v) ∈ d
  · rw [if_pos hm, if_pos (this.1 hm)]
  · rw [if_neg hm, if_neg (fun h => hm (this.2 h))]

omit [DecidableEq κ] in
theorem sumI_perm {d e : Dict κ Int} (h : d.Perm e) : sumI d = sumI e := by
  unfold sumI values
  induction h with
  | nil => rfl
  | cons x _ ih => simp_all
  | swap x y l => simp; omega
  | trans _ _ ih1 ih2 => rw [ih1, ih2]

theorem get?_map_ofList {ν : Type} (xs : List (κ × ν)) (h : WF xs) (k : κ) : get? (ofList xs) k = get? xs k := by
  have key : ∀ (xs : List (κ × ν)) (d : Dict κ ν) (_ : WF xs), get? (xs.foldl (fun d e => set d e.1 e.2) d) k = (get? xs k).or (get? d k) := by
    intro xs
    induction xs with
    | nil => intro d _; simp
    | cons a xs ih =>
      intro d h
      simp only [WF, keys, List.map_cons, List.nodup_cons] at h
      rw [List.foldl_cons, ih _ h.2, get?_set]
      obtain ⟨a, b⟩ := a
      rw [get?_cons]
      by_cases hk : a = k
      · subst hk
        have : get? xs a = none := (get?_eq_none_iff xs a).2 h.1
        simp [this]
      · simp [hk]
  unfold ofList
  rw [key xs [] h]; simp

theorem wf_ofList {ν : Type} (xs : List (κ × ν)) : WF (ofList xs) := by
  have key : ∀ (xs : List (κ × ν)) (d : Dict κ ν) (_ : WF d), WF (xs.foldl (fun d e => set d e.1 e.2) d) := by
    intro xs
    induction xs with
    | nil => intro d h; exact h
    | cons a xs ih => intro d h; exact ih _ (h.set _ _)
  exact key xs [] wf_nil

end Py.Dict

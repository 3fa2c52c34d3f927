import Verif.Py.Basic
/-!
Python `dict` as an insertion-ordered association list, with its lemmas.
-/
namespace Py

/-- an insertion-ordered `dict`; real dictionaries have no repeated key (`Dict.WF`) -/
abbrev Dict (κ ν : Type) := List (κ × ν)

namespace Dict
variable {κ ν : Type} [DecidableEq κ]

/-- `d.keys()` -/
abbrev keys (d : Dict κ ν) : List κ := d.map (·.1)
/-- `d.values()` -/
abbrev values (d : Dict κ ν) : List ν := d.map (·.2)

/-- no key is stored twice -/
def WF (d : Dict κ ν) : Prop := (keys d).Nodup

/-- `d.get(k)` -/
def get? (d : Dict κ ν) (k : κ) : Option ν :=
  match d with
  | [] => none
  | (k', v) :: d => if k' = k then some v else get? d k

/-- `d.get(k, default)` -/
abbrev getD (d : Dict κ ν) (k : κ) (v : ν) : ν := (get? d k).getD v

/-- `d[k]` -/
def getItem (d : Dict κ ν) (k : κ) : PyM ν :=
  match get? d k with
  | some v => .ok v
  | none => .error .keyError

/-- `k in d` -/
abbrev has (d : Dict κ ν) (k : κ) : Bool := (get? d k).isSome

/-- `d[k] = v`: overwrite in place, or append -/
def set (d : Dict κ ν) (k : κ) (v : ν) : Dict κ ν :=
  match d with
  | [] => [(k, v)]
  | (k', v') :: d => if k' = k then (k', v) :: d else (k', v') :: set d k v

/-- `d.pop(k)` on a present key (absent keys are left alone) -/
def erase (d : Dict κ ν) (k : κ) : Dict κ ν := d.filter (fun e => e.1 ≠ k)

/-- `d[k] = d.get(k, 0) + n` -/
abbrev add (d : Dict κ Nat) (k : κ) (n : Nat) : Dict κ Nat := set d k (getD d k 0 + n)

/-- `Counter(xs)` / `defaultdict(int)` incremented once for each element -/
def counter (xs : List κ) : Dict κ Nat := xs.foldl (fun d x => add d x 1) []

/-- build a dict from (key, value) pairs, later ones overwriting -/
def ofList (xs : List (κ × ν)) : Dict κ ν := xs.foldl (fun d e => set d e.1 e.2) []

/-! ### lemmas -/

@[simp] theorem get?_nil (k : κ) : get? ([] : Dict κ ν) k = none := rfl

theorem get?_cons (k' : κ) (v : ν) (d : Dict κ ν) (k : κ) :
    get? ((k', v) :: d) k = if k' = k then some v else get? d k := rfl

theorem get?_set (d : Dict κ ν) (k k' : κ) (v : ν) :
    get? (set d k v) k' = if k = k' then some v else get? d k' := by
  induction d with
  | nil => rfl
  | cons e d ih =>
    obtain ⟨a, b⟩ := e
    simp only [set]
    by_cases h : a = k
    · subst h; simp only [if_true, get?_cons]; split <;> rfl
    · rw [if_neg h, get?_cons, get?_cons, ih]
      by_cases h1 : a = k'
      · subst h1; rw [if_pos rfl, if_neg (Ne.symm h)]; simp
      · rw [if_neg h1, if_neg h1]

theorem get?_append (d e : Dict κ ν) (k : κ) : get? (d ++ e) k = (get? d k).or (get? e k) := by
  induction d with
  | nil => simp
  | cons a d ih =>
    obtain ⟨a, b⟩ := a
    simp only [List.cons_append, get?_cons, ih]; split <;> simp

theorem get?_eq_none_iff (d : Dict κ ν) (k : κ) : get? d k = none ↔ k ∉ keys d := by
  induction d with
  | nil => simp
  | cons a d ih =>
    obtain ⟨a, b⟩ := a
    simp only [get?_cons, keys, List.map_cons, List.mem_cons]
    by_cases h : a = k
    · simp [h]
    · simp only [if_neg h, ih, keys]; simp [Ne.symm h]

theorem isSome_get?_iff (d : Dict κ ν) (k : κ) : (get? d k).isSome = true ↔ k ∈ keys d := by
  have := get?_eq_none_iff d k
  cases h : get? d k with
  | none => simp [h] at this ⊢; exact this
  | some v => simp [h] at this ⊢; exact this

theorem mem_of_get? {d : Dict κ ν} {k : κ} {v : ν} (h : get? d k = some v) : (k, v) ∈ d := by
  induction d with
  | nil => simp at h
  | cons a d ih =>
    obtain ⟨a, b⟩ := a
    rw [get?_cons] at h
    by_cases hk : a = k
    · rw [if_pos hk] at h; cases h; subst hk; simp
    · rw [if_neg hk] at h; exact List.mem_cons_of_mem _ (ih h)

theorem get?_of_mem {d : Dict κ ν} (wf : WF d) {k : κ} {v : ν} (h : (k, v) ∈ d) : get? d k = some v := by
  induction d with
  | nil => simp at h
  | cons a d ih =>
    obtain ⟨a, b⟩ := a
    simp only [WF, keys, List.map_cons, List.nodup_cons] at wf
    rw [get?_cons]
    rcases List.mem_cons.1 h with h | h
    · cases h; simp
    · have : a ≠ k := by
        rintro rfl; exact wf.1 (List.mem_map.2 ⟨_, h, rfl⟩)
      rw [if_neg this]; exact ih wf.2 h

theorem mem_iff_get? {d : Dict κ ν} (wf : WF d) {k : κ} {v : ν} : (k, v) ∈ d ↔ get? d k = some v :=
  ⟨get?_of_mem wf, mem_of_get?⟩

omit [DecidableEq κ] in
@[simp] theorem wf_nil : WF ([] : Dict κ ν) := List.nodup_nil

theorem keys_set (d : Dict κ ν) (k : κ) (v : ν) :
    keys (set d k v) = if k ∈ keys d then keys d else keys d ++ [k] := by
  induction d with
  | nil => simp [set]
  | cons a d ih =>
    obtain ⟨a, b⟩ := a
    simp only [set]
    by_cases h : a = k
    · subst h; simp
    · rw [if_neg h]
      simp only [keys, List.map_cons] at ih ⊢
      rw [ih]
      by_cases hm : k ∈ List.map (fun x => x.fst) d
      · simp [hm]
      · simp [hm, Ne.symm h]

theorem mem_keys_set (d : Dict κ ν) (k k' : κ) (v : ν) : k' ∈ keys (set d k v) ↔ k' = k ∨ k' ∈ keys d := by
  rw [keys_set]; split
  · constructor
    · exact Or.inr
    · rintro (rfl | h) <;> assumption
  · simp [or_comm]

theorem WF.set {d : Dict κ ν} (h : WF d) (k : κ) (v : ν) : WF (set d k v) := by
  unfold WF; rw [keys_set]; split
  · exact h
  · rename_i hk
    rw [List.nodup_append]
    refine ⟨h, by simp, ?_⟩
    intro a ha b hb; simp at hb; subst hb; rintro rfl; exact hk ha

theorem get?_erase (d : Dict κ ν) (k k' : κ) : get? (erase d k) k' = if k = k' then none else get? d k' := by
  induction d with
  | nil => simp [erase]
  | cons a d ih =>
    obtain ⟨a, b⟩ := a
    simp only [erase, List.filter_cons] at ih ⊢
    by_cases h : a = k
    · subst h; simp only [ne_eq, not_true, decide_false, Bool.false_eq_true, if_false, ih, get?_cons]
      split <;> simp_all
    · simp only [ne_eq, h, not_false_eq_true, decide_true, if_true, get?_cons, ih]
      by_cases h1 : a = k'
      · subst h1; simp [Ne.symm h]
      · simp [h1]

omit [DecidableEq κ] in
theorem WF.sublist {d e : Dict κ ν} (h : WF d) (hs : e.Sublist d) : WF e :=
  List.Nodup.sublist (hs.map _) h

theorem WF.erase {d : Dict κ ν} (h : WF d) (k : κ) : WF (erase d k) := h.sublist List.filter_sublist

omit [DecidableEq κ] in
theorem WF.filter {d : Dict κ ν} (h : WF d) (p : κ × ν → Bool) : WF (d.filter p) := h.sublist List.filter_sublist

theorem get?_filter {d : Dict κ ν} (h : WF d) (p : κ × ν → Bool) (k : κ) :
    get? (d.filter p) k = (get? d k).filter (fun v => p (k, v)) := by
  induction d with
  | nil => simp
  | cons a d ih =>
    obtain ⟨a, b⟩ := a
    have h' := h
    simp only [WF, keys, List.map_cons, List.nodup_cons] at h
    simp only [List.filter_cons]
    by_cases hk : a = k
    · subst hk
      have hn : get? (d.filter p) a = none := by
        rw [get?_eq_none_iff]; intro hm
        simp only [keys, List.mem_map, List.mem_filter] at hm
        obtain ⟨e, ⟨he, _⟩, rfl⟩ := hm
        exact h.1 (List.mem_map.2 ⟨e, he, rfl⟩)
      by_cases hp : p (a, b) = true
      · simp [hp, get?_cons, Option.filter]
      · simp [hp, get?_cons, hn, Option.filter]
    · by_cases hp : p (a, b) = true
      · simp only [hp, if_true, get?_cons, if_neg hk]; exact ih h.2
      · simp only [hp, if_false, get?_cons, if_neg hk, Bool.false_eq_true]; exact ih h.2

theorem WF.add {d : Dict κ Nat} (h : WF d) (k : κ) (n : Nat) : WF (add d k n) := h.set _ _

theorem getD_add (d : Dict κ Nat) (k k' : κ) (n : Nat) :
    getD (add d k n) k' 0 = getD d k' 0 + if k = k' then n else 0 := by
  simp only [getD, add, get?_set]
  by_cases h : k = k'
  · subst h; simp
  · simp [h]

/-- folding weighted increments -/
theorem getD_foldl_add {β} (xs : List β) (key : β → κ) (w : β → Nat) (d : Dict κ Nat) (k : κ) :
    getD (xs.foldl (fun d x => add d (key x) (w x)) d) k 0 =
      getD d k 0 + ((xs.filter (fun x => key x = k)).map w).sum := by
  induction xs generalizing d with
  | nil => simp
  | cons x xs ih =>
    rw [List.foldl_cons, ih, getD_add]
    by_cases h : key x = k
    · simp [h]; omega
    · simp [h]

theorem WF.foldl_add {β} (xs : List β) (key : β → κ) (w : β → Nat) {d : Dict κ Nat} (h : WF d) :
    WF (xs.foldl (fun d x => Dict.add d (key x) (w x)) d) := by
  induction xs generalizing d with
  | nil => exact h
  | cons x xs ih => exact ih (h.add _ _)

theorem mem_keys_foldl_add {β} (xs : List β) (key : β → κ) (w : β → Nat) (d : Dict κ Nat) (k : κ) :
    k ∈ keys (xs.foldl (fun d x => add d (key x) (w x)) d) ↔ k ∈ keys d ∨ ∃ x ∈ xs, key x = k := by
  induction xs generalizing d with
  | nil => simp
  | cons x xs ih =>
    rw [List.foldl_cons, ih, mem_keys_set]
    constructor
    · rintro ((rfl | h) | ⟨y, hy, e⟩)
      · exact Or.inr ⟨x, by simp, rfl⟩
      · exact Or.inl h
      · exact Or.inr ⟨y, by simp [hy], e⟩
    · rintro (h | ⟨y, hy, e⟩)
      · exact Or.inl (Or.inr h)
      · rcases List.mem_cons.1 hy with rfl | hy
        · exact Or.inl (Or.inl e.symm)
        · exact Or.inr ⟨y, hy, e⟩

theorem wf_counter (xs : List κ) : WF (counter xs) := WF.foldl_add xs id (fun _ => 1) wf_nil

theorem getD_counter (xs : List κ) (k : κ) : getD (counter xs) k 0 = xs.count k := by
  have := getD_foldl_add xs id (fun _ => 1) ([] : Dict κ Nat) k
  simp only [id] at this
  unfold counter; rw [this]
  have hf : (fun x => decide (x = k)) = (fun x => x == k) := by funext x; rw [Bool.eq_iff_iff]; simp
  simp [List.map_const', List.count_eq_countP, List.countP_eq_length_filter, getD, hf]

theorem mem_keys_counter (xs : List κ) (k : κ) : k ∈ keys (counter xs) ↔ k ∈ xs := by
  have := mem_keys_foldl_add xs id (fun _ => 1) ([] : Dict κ Nat) k
  simp only [id] at this
  unfold counter; rw [this]; simp

theorem get?_counter (xs : List κ) (k : κ) : get? (counter xs) k = if k ∈ xs then some (xs.count k) else none := by
  have h1 := getD_counter xs k
  have h2 := mem_keys_counter xs k
  rw [← isSome_get?_iff] at h2
  cases h : get? (counter xs) k with
  | none => rw [h] at h2; simp at h2; simp [h2]
  | some v => rw [h] at h2; simp at h2; simp [h2]; simpa [getD, h] using h1

/-- counting with `countP`, independent of the `BEq` instance in use -/
theorem getD_foldl_inc (xs : List κ) (d : Dict κ Nat) (k : κ) :
    getD (xs.foldl (fun d x => add d x 1) d) k 0 = getD d k 0 + xs.countP (fun x => decide (x = k)) := by
  have := getD_foldl_add xs id (fun _ => 1) d k
  simp only [id] at this
  rw [this]
  simp [List.map_const', List.countP_eq_length_filter]

theorem get?_foldl_inc (xs : List κ) (k : κ) :
    get? (xs.foldl (fun d x => add d x 1) []) k =
      if 0 < xs.countP (fun x => decide (x = k)) then some (xs.countP (fun x => decide (x = k))) else none := by
  have h1 := getD_foldl_inc xs [] k
  have h2 := mem_keys_foldl_add xs id (fun _ => 1) ([] : Dict κ Nat) k
  simp only [id] at h2
  rw [← isSome_get?_iff] at h2
  simp only [getD, get?_nil, Option.getD_none, Nat.zero_add] at h1
  have h3 : 0 < xs.countP (fun x => decide (x = k)) ↔ ∃ x ∈ xs, x = k := by simp [List.countP_pos_iff]
  cases hg : get? (xs.foldl (fun d x => add d x 1) []) k with
  | none =>
    rw [hg] at h2; simp at h2
    rw [if_neg]; rw [h3]; rintro ⟨x, hx, rfl⟩; exact h2 hx
  | some v =>
    rw [hg] at h2 h1; simp at h2 h1
    rw [if_pos (h3.2 ⟨k, h2, rfl⟩), h1]

/-- a list of pairs with distinct keys is its own dictionary -/
theorem foldl_set_append (ys zs : Dict κ ν) (hw : WF (zs ++ ys)) : ys.foldl (fun d e => set d e.1 e.2) zs = zs ++ ys := by
  induction ys generalizing zs with
  | nil => simp
  | cons y ys ih =>
    rw [List.foldl_cons]
    have hs : Dict.set zs y.1 y.2 = zs ++ [y] := by
      have hn : y.1 ∉ Dict.keys zs := by
        intro hm
        simp only [Dict.WF, Dict.keys, List.map_append, List.map_cons, List.nodup_append] at hw
        exact hw.2.2 _ hm _ (by simp) rfl
      clear hw ih
      induction zs with
      | nil => rfl
      | cons z zs ihz =>
        have h1 : z.1 ≠ y.1 := fun e => hn (by simp [Dict.keys, e])
        have h2 : y.1 ∉ Dict.keys zs := fun hm => hn (by simp only [Dict.keys, List.map_cons, List.mem_cons]; exact Or.inr hm)
        obtain ⟨z1, z2⟩ := z
        simp only [Dict.set, if_neg h1, ihz h2, List.cons_append]
    rw [hs, ih _ (by simpa using hw)]; simp

theorem ofList_eq_self (xs : Dict κ ν) (h : WF xs) : ofList xs = xs := foldl_set_append xs [] h

end Dict
end Py

import Verif.Model.Basic

namespace Ross.Dict

variable {κ α : Type*} [DecidableEq κ]

theorem get?_set_self (d : Dict κ α) (k : κ) (v : α) : (d.set k v).get? k = some v := by
  induction d with
  | nil => simp [set, get?]
  | cons p t ih =>
    obtain ⟨k', v'⟩ := p
    by_cases h : k' = k <;> simp [set, get?, h, ih]

theorem get?_set_ne (d : Dict κ α) {k k' : κ} (v : α) (h : k ≠ k') :
    (d.set k v).get? k' = d.get? k' := by
  induction d with
  | nil => simp [set, get?, h]
  | cons p t ih =>
    obtain ⟨a, b⟩ := p
    by_cases h1 : a = k
    · subst h1; simp [set, get?, h]
    · by_cases h2 : a = k'
      · subst h2; simp [set, get?, h1]
      · simp [set, get?, h1, h2, ih]

theorem get?_set (d : Dict κ α) (k k' : κ) (v : α) :
    (d.set k v).get? k' = if k = k' then some v else d.get? k' := by
  by_cases h : k = k'
  · subst h; simp [get?_set_self]
  · simp [h, get?_set_ne d v h]

theorem mem_keys_iff (d : Dict κ α) (k : κ) : k ∈ d.keys ↔ (d.get? k).isSome := by
  induction d with
  | nil => simp [keys, get?]
  | cons p t ih =>
    obtain ⟨a, b⟩ := p
    by_cases h : a = k
    · subst h; simp [keys, get?]
    · have h' : k ≠ a := fun e => h e.symm
      simpa [keys, get?, h, h'] using ih

theorem get?_none_of_not_mem (d : Dict κ α) {k : κ} (h : k ∉ d.keys) : d.get? k = none := by
  rw [mem_keys_iff] at h; simpa using h

theorem mem_keys_set (d : Dict κ α) (k k' : κ) (v : α) :
    k' ∈ (d.set k v).keys ↔ k' = k ∨ k' ∈ d.keys := by
  rw [mem_keys_iff, mem_keys_iff, get?_set]
  by_cases h : k = k'
  · subst h; simp
  · have h' : k' ≠ k := fun e => h e.symm
    simp [h, h']

theorem nodup_set (d : Dict κ α) (k : κ) (v : α) (h : d.keys.Nodup) : (d.set k v).keys.Nodup := by
  induction d with
  | nil => simp [set, keys]
  | cons p t ih =>
    obtain ⟨a, b⟩ := p
    have ha : a ∉ keys t := (List.nodup_cons.1 h).1
    have ht : (keys t).Nodup := (List.nodup_cons.1 h).2
    by_cases h1 : a = k
    · simp only [set, h1, if_true]
      subst h1
      exact h
    · simp only [set, h1, if_false]
      refine List.nodup_cons.2 ⟨?_, ih ht⟩
      intro hm
      have := (mem_keys_set t k a v).1 hm
      rcases this with e | e
      · exact h1 e
      · exact ha e

theorem get?_del (d : Dict κ α) (k k' : κ) (h : d.keys.Nodup) :
    (d.del k).get? k' = if k = k' then none else d.get? k' := by
  induction d with
  | nil => simp [del, get?]
  | cons p t ih =>
    obtain ⟨a, b⟩ := p
    have ha : a ∉ keys t := (List.nodup_cons.1 h).1
    have ht : (keys t).Nodup := (List.nodup_cons.1 h).2
    by_cases h1 : a = k
    · subst h1
      by_cases h2 : a = k'
      · subst h2; simp [del, get?_none_of_not_mem t ha]
      · simp [del, get?, h2]
    · by_cases h2 : a = k'
      · subst h2
        have h1' : k ≠ a := fun e => h1 e.symm
        simp [del, get?, h1, h1']
      · simp [del, get?, h1, h2, ih ht]

theorem mem_keys_del_subset (d : Dict κ α) (k k' : κ) (h : k' ∈ (d.del k).keys) : k' ∈ d.keys := by
  induction d with
  | nil => simpa [del] using h
  | cons p t ih =>
    obtain ⟨a, b⟩ := p
    by_cases h1 : a = k
    · simp only [del, h1, if_true] at h
      exact List.mem_cons_of_mem _ h
    · simp only [del, h1, if_false, keys, List.map_cons, List.mem_cons] at h ⊢
      rcases h with h | h
      · exact Or.inl h
      · exact Or.inr (ih h)

theorem nodup_del (d : Dict κ α) (k : κ) (h : d.keys.Nodup) : (d.del k).keys.Nodup := by
  induction d with
  | nil => simp [del, keys]
  | cons p t ih =>
    obtain ⟨a, b⟩ := p
    have ha : a ∉ keys t := (List.nodup_cons.1 h).1
    have ht : (keys t).Nodup := (List.nodup_cons.1 h).2
    by_cases h1 : a = k
    · simp only [del, h1, if_true]; exact ht
    · simp only [del, h1, if_false]
      exact List.nodup_cons.2 ⟨fun hm => ha (mem_keys_del_subset t k a hm), ih ht⟩

/-- Setting a fresh key appends the pair. -/
theorem set_of_not_mem (d : Dict κ α) (k : κ) (v : α) (h : k ∉ d.keys) :
    d.set k v = d ++ [(k, v)] := by
  induction d with
  | nil => simp [set]
  | cons p t ih =>
    obtain ⟨a, b⟩ := p
    have h1 : a ≠ k := fun e => h (by simp [keys, e])
    have h2 : k ∉ keys t := fun hm => h (List.mem_cons_of_mem _ hm)
    simp [set, h1, ih h2]

end Ross.Dict

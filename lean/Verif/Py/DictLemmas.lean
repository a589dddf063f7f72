import Verif.Py.Basic
import Mathlib.Data.List.Basic
import Mathlib.Data.List.Nodup

namespace TFMA
namespace Dict

variable {K V : Type} [DecidableEq K]

@[simp] theorem get?_nil (k : K) : get? ([] : Dict K V) k = none := rfl

theorem get?_cons (k' : K) (v : V) (d : Dict K V) (k : K) :
    get? ((k', v) :: d) k = if k' = k then some v else get? d k := rfl

theorem get?_set (d : Dict K V) (k : K) (v : V) (k₂ : K) :
    get? (set d k v) k₂ = if k = k₂ then some v else get? d k₂ := by
  induction d with
  | nil => simp [set, get?]
  | cons p d ih =>
    obtain ⟨k', v'⟩ := p
    simp only [set]
    by_cases h : k' = k
    · subst h
      simp only [if_true, get?]
      by_cases h2 : k' = k₂ <;> simp [h2]
    · simp only [h, if_false, get?, ih]
      by_cases h2 : k' = k₂
      · subst h2
        simp [Ne.symm h]
      · simp [h2]

@[simp] theorem get?_set_self (d : Dict K V) (k : K) (v : V) : get? (set d k v) k = some v := by
  simp [get?_set]

theorem get?_set_ne (d : Dict K V) {k k₂ : K} (v : V) (h : k ≠ k₂) :
    get? (set d k v) k₂ = get? d k₂ := by
  simp [get?_set, h]

theorem get?_del (d : Dict K V) (k k₂ : K) :
    get? (del d k) k₂ = if k = k₂ then none else get? d k₂ := by
  induction d with
  | nil => simp [del]
  | cons p d ih =>
    obtain ⟨k', v'⟩ := p
    simp only [del]
    by_cases h : k' = k
    · subst h
      simp only [if_true, ih, get?]
      by_cases h2 : k' = k₂ <;> simp [h2]
    · simp only [h, if_false, get?, ih]
      by_cases h2 : k' = k₂
      · subst h2
        simp [Ne.symm h]
      · simp [h2]

theorem mem_keys_iff (d : Dict K V) (k : K) : k ∈ keys d ↔ ∃ v, get? d k = some v := by
  induction d with
  | nil => simp [keys]
  | cons p d ih =>
    obtain ⟨k', v'⟩ := p
    have : keys ((k', v') :: d) = k' :: keys d := rfl
    rw [this, List.mem_cons, ih]
    simp only [get?]
    by_cases h : k' = k
    · simp [h]
    · simp [h, Ne.symm h]

theorem get?_eq_none_iff (d : Dict K V) (k : K) : get? d k = none ↔ k ∉ keys d := by
  rw [mem_keys_iff]
  cases h : get? d k <;> simp

theorem mem_of_get? {d : Dict K V} {k : K} {v : V} (h : get? d k = some v) : (k, v) ∈ d := by
  induction d with
  | nil => simp at h
  | cons p d ih =>
    obtain ⟨k', v'⟩ := p
    simp only [get?] at h
    by_cases h2 : k' = k
    · simp [h2] at h; simp [h, h2]
    · simp [h2] at h; exact List.mem_cons_of_mem _ (ih h)

theorem get?_of_mem {d : Dict K V} (hwf : d.WF) {k : K} {v : V} (h : (k, v) ∈ d) :
    get? d k = some v := by
  induction d with
  | nil => simp at h
  | cons p d ih =>
    obtain ⟨k', v'⟩ := p
    have hwf' : k' ∉ keys d ∧ WF d := by
      simpa [WF, keys] using hwf
    simp only [get?]
    rcases List.mem_cons.mp h with h | h
    · obtain ⟨rfl, rfl⟩ := Prod.mk.inj h
      simp
    · have hk : k ∈ keys d := List.mem_map.mpr ⟨(k, v), h, rfl⟩
      have hne : k' ≠ k := fun e => hwf'.1 (e ▸ hk)
      simp [hne, ih hwf'.2 h]

theorem mem_iff_get? {d : Dict K V} (hwf : d.WF) (k : K) (v : V) :
    (k, v) ∈ d ↔ get? d k = some v :=
  ⟨get?_of_mem hwf, mem_of_get?⟩

theorem keys_set (d : Dict K V) (k : K) (v : V) :
    keys (set d k v) = if k ∈ keys d then keys d else keys d ++ [k] := by
  induction d with
  | nil => simp [set, keys]
  | cons p d ih =>
    obtain ⟨k', v'⟩ := p
    simp only [set]
    by_cases h : k' = k
    · subst h; simp [keys]
    · simp only [h, if_false]
      have e1 : keys ((k', v') :: set d k v) = k' :: keys (set d k v) := rfl
      have e2 : keys ((k', v') :: d) = k' :: keys d := rfl
      rw [e1, e2, ih]
      by_cases h2 : k ∈ keys d <;> simp [h2, Ne.symm h]

omit [DecidableEq K] in
theorem WF_nil : WF ([] : Dict K V) := by simp [WF, keys]

theorem WF_set {d : Dict K V} (h : d.WF) (k : K) (v : V) : WF (set d k v) := by
  unfold WF
  rw [keys_set]
  by_cases hk : k ∈ keys d
  · rw [if_pos hk]; exact h
  · simp only [hk, if_false]
    exact List.Nodup.append h (by simp) (by simpa using hk)

theorem keys_del (d : Dict K V) (k : K) : keys (del d k) = (keys d).filter (fun x => decide (x ≠ k)) := by
  induction d with
  | nil => simp [del, keys]
  | cons p d ih =>
    obtain ⟨k', v'⟩ := p
    simp only [del]
    have e2 : keys ((k', v') :: d) = k' :: keys d := rfl
    by_cases h : k' = k
    · rw [e2]; simp [h, ih]
    · have e1 : keys ((k', v') :: del d k) = k' :: keys (del d k) := rfl
      simp [h, e1, e2, ih]

theorem WF_del {d : Dict K V} (h : d.WF) (k : K) : WF (del d k) := by
  unfold WF; rw [keys_del]; exact List.Nodup.filter _ h

theorem has_iff (d : Dict K V) (k : K) : has d k = true ↔ k ∈ keys d := by
  rw [mem_keys_iff, has, Option.isSome_iff_exists]

theorem has_eq_false_iff (d : Dict K V) (k : K) : has d k = false ↔ k ∉ keys d := by
  rw [← has_iff]; simp

end Dict
end TFMA

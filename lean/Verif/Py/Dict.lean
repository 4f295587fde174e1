import Mathlib.Data.List.Nodup
import Mathlib.Data.List.Perm.Basic

/-!
Python `dict` and `set` as used by pymnet.

* `Dict κ ν`: association list in insertion order (CPython ≥ 3.7 dict order).
* sets: duplicate-free lists.
-/

namespace Py

variable {κ ν α : Type}

/-- Python `dict` (language semantics; used by `/repo/pymnet/net.py` 102-110 for `_net`, `_rnet`,
`_totalDegree`, `_layerToNodes`, `_nodeToLayers`). Association list in insertion order. -/
abbrev Dict (κ ν : Type) := List (κ × ν)

namespace Dict

variable [DecidableEq κ]

/-- `d.get(k)` / `d[k]`; `none` stands for "key missing". -/
def get : Dict κ ν → κ → Option ν
  | [], _ => none
  | (k, v) :: t, x => if k = x then some v else get t x

/-- `k in d`. -/
def has (d : Dict κ ν) (k : κ) : Bool := (get d k).isSome

/-- `d[k] = v`: overwrites in place, appends a new key at the end. -/
def set : Dict κ ν → κ → ν → Dict κ ν
  | [], k, v => [(k, v)]
  | (k', v') :: t, k, v => if k' = k then (k', v) :: t else (k', v') :: set t k v

/-- `del d[k]` for a key that is present (callers model the `KeyError` themselves). -/
def del (d : Dict κ ν) (k : κ) : Dict κ ν := d.filter (fun p => p.1 ≠ k)

/-- `iter(d)`: the keys in insertion order. -/
def keys (d : Dict κ ν) : List κ := d.map Prod.fst

@[simp] theorem get_nil (x : κ) : get ([] : Dict κ ν) x = none := rfl

theorem get_cons (k : κ) (v : ν) (t : Dict κ ν) (x : κ) :
    get ((k, v) :: t) x = if k = x then some v else get t x := rfl

theorem get_set (d : Dict κ ν) (k : κ) (v : ν) (x : κ) :
    get (set d k v) x = if k = x then some v else get d x := by
  induction d with
  | nil => simp [set, get]
  | cons p t ih =>
    obtain ⟨k', v'⟩ := p
    by_cases h : k' = k
    · subst h; by_cases h2 : k' = x <;> simp [set, get, h2]
    · by_cases h2 : k' = x
      · subst h2
        have : ¬ k = k' := fun e => h e.symm
        simp [set, get, h, this]
      · simp [set, get, h, h2, ih]

@[simp] theorem get_set_self (d : Dict κ ν) (k : κ) (v : ν) : get (set d k v) k = some v := by
  simp [get_set]

theorem get_set_ne (d : Dict κ ν) {k x : κ} (v : ν) (h : k ≠ x) : get (set d k v) x = get d x := by
  simp [get_set, h]

theorem del_cons (k' : κ) (v' : ν) (t : Dict κ ν) (k : κ) :
    del ((k', v') :: t) k = if k' = k then del t k else (k', v') :: del t k := by
  by_cases h : k' = k <;> simp [del, h]

theorem get_del (d : Dict κ ν) (k x : κ) :
    get (del d k) x = if k = x then none else get d x := by
  induction d with
  | nil => simp [del, get]
  | cons p t ih =>
    obtain ⟨k', v'⟩ := p
    rw [del_cons]
    by_cases h : k' = k
    · subst h
      by_cases h2 : k' = x
      · subst h2; simpa using ih
      · simp [get, h2, ih]
    · by_cases h2 : k' = x
      · subst h2
        have : ¬ k = k' := fun e => h e.symm
        simp [get, h, this]
      · simp [get, h, h2, ih]

theorem mem_keys {d : Dict κ ν} {k : κ} : k ∈ keys d ↔ (get d k).isSome = true := by
  induction d with
  | nil => simp [keys]
  | cons p t ih =>
    obtain ⟨k', v'⟩ := p
    by_cases h : k' = k
    · simp [keys, get, h]
    · have h' : ¬ k = k' := fun e => h e.symm
      simp only [keys] at ih
      simp [keys, get, h, h', ih]

theorem mem_keys_iff_has {d : Dict κ ν} {k : κ} : k ∈ keys d ↔ has d k = true := mem_keys

theorem get_eq_none {d : Dict κ ν} {k : κ} : get d k = none ↔ k ∉ keys d := by
  rw [mem_keys]; cases get d k <;> simp

theorem keys_set (d : Dict κ ν) (k : κ) (v : ν) :
    keys (set d k v) = if k ∈ keys d then keys d else keys d ++ [k] := by
  induction d with
  | nil => simp [keys, set]
  | cons p t ih =>
    obtain ⟨k', v'⟩ := p
    by_cases h : k' = k
    · simp [set, keys, h]
    · have h' : ¬ k = k' := fun e => h e.symm
      simp only [keys] at ih
      simp only [set, h, if_false, keys, List.map_cons, ih, List.mem_cons, h', false_or]
      split <;> rename_i hk <;> simp [hk]

theorem keys_del (d : Dict κ ν) (k : κ) : keys (del d k) = (keys d).filter (fun x => x ≠ k) := by
  unfold keys del
  rw [List.filter_map]; rfl

theorem nodup_keys_set {d : Dict κ ν} (h : (keys d).Nodup) (k : κ) (v : ν) :
    (keys (set d k v)).Nodup := by
  rw [keys_set]; split
  · exact h
  · rename_i hk
    rw [List.nodup_append]
    refine ⟨h, by simp, ?_⟩
    intro a ha b hb
    simp at hb; subst hb
    rintro rfl; exact hk ha

theorem nodup_keys_del {d : Dict κ ν} (h : (keys d).Nodup) (k : κ) : (keys (del d k)).Nodup := by
  rw [keys_del]; exact h.filter _

theorem mem_of_get {d : Dict κ ν} {k : κ} {v : ν} (h : get d k = some v) : (k, v) ∈ d := by
  induction d with
  | nil => simp at h
  | cons p t ih =>
    obtain ⟨k', v'⟩ := p
    by_cases e : k' = k
    · simp [get, e] at h; simp [e, h]
    · simp [get, e] at h; exact List.mem_cons_of_mem _ (ih h)

theorem get_of_mem {d : Dict κ ν} (hn : (keys d).Nodup) {k : κ} {v : ν} (h : (k, v) ∈ d) :
    get d k = some v := by
  induction d with
  | nil => simp at h
  | cons p t ih =>
    obtain ⟨k', v'⟩ := p
    simp only [keys, List.map_cons, List.nodup_cons] at hn
    rcases List.mem_cons.1 h with h | h
    · simp only [Prod.mk.injEq] at h; simp [get, h.1, h.2]
    · have : k' ≠ k := by
        rintro rfl
        exact hn.1 (List.mem_map.2 ⟨_, h, rfl⟩)
      simp only [get, this, if_false]
      exact ih hn.2 h

omit [DecidableEq κ] in
theorem length_keys (d : Dict κ ν) : (keys d).length = d.length := by simp [keys]

end Dict

/-- `s.add(x)` on a Python set. -/
def sadd [DecidableEq α] (s : List α) (x : α) : List α := if x ∈ s then s else s ++ [x]

@[simp] theorem mem_sadd [DecidableEq α] {s : List α} {x y : α} :
    y ∈ sadd s x ↔ y ∈ s ∨ y = x := by
  unfold sadd; split <;> simp
  rintro rfl; assumption

theorem nodup_sadd [DecidableEq α] {s : List α} (h : s.Nodup) (x : α) : (sadd s x).Nodup := by
  unfold sadd; split
  · exact h
  · rename_i hx
    rw [List.nodup_append]
    refine ⟨h, by simp, ?_⟩
    intro a ha b hb
    simp at hb; subst hb
    rintro rfl; exact hx ha

@[simp] theorem sadd_of_mem [DecidableEq α] {s : List α} {x : α} (h : x ∈ s) : sadd s x = s := by
  simp [sadd, h]

/-- `itertools.product(*ss)`: the first factor varies slowest. -/
def product : List (List α) → List (List α)
  | [] => [[]]
  | s :: ss => s.flatMap fun a => (product ss).map (a :: ·)

theorem mem_product {ss : List (List α)} {x : List α} :
    x ∈ product ss ↔ List.Forall₂ (· ∈ ·) x ss := by
  induction ss generalizing x with
  | nil => cases x <;> simp [product]
  | cons s ss ih =>
    simp only [product, List.mem_flatMap, List.mem_map]
    constructor
    · rintro ⟨a, ha, y, hy, rfl⟩
      exact List.Forall₂.cons ha (ih.1 hy)
    · intro h
      cases h with
      | cons ha hr => exact ⟨_, ha, _, ih.2 hr, rfl⟩

theorem length_of_mem_product {ss : List (List α)} {x : List α} (h : x ∈ product ss) :
    x.length = ss.length := (mem_product.1 h).length_eq

theorem nodup_product {ss : List (List α)} (h : ∀ s ∈ ss, s.Nodup) : (product ss).Nodup := by
  induction ss with
  | nil => simp [product]
  | cons s ss ih =>
    have hs : s.Nodup := h s (by simp)
    have hss := ih (fun t ht => h t (by simp [ht]))
    simp only [product]
    rw [List.nodup_flatMap]
    refine ⟨?_, ?_⟩
    · intro a _
      exact hss.map (fun x y e => by simpa using e)
    · refine hs.imp ?_
      intro a b hab
      simp only [Function.onFun, List.disjoint_left, List.mem_map]
      rintro _ ⟨x, _, rfl⟩ ⟨y, _, e⟩
      exact hab (by simpa using (List.cons.inj e).1.symm)

theorem length_product (ss : List (List α)) :
    (product ss).length = (ss.map List.length).prod := by
  induction ss with
  | nil => simp [product]
  | cons s ss ih =>
    simp [product, List.length_flatMap, ih]

end Py

namespace Py

/-! Nested dictionaries `d[a][b]`. -/

variable {κ ν : Type} [DecidableEq κ]

/-- `d[a][b]`, `none` if one of the keys is missing. -/
def get2 (d : Dict κ (Dict κ ν)) (a b : κ) : Option ν := (Dict.get d a).bind (Dict.get · b)

/-- outer and inner keys are unique -/
structure WF2 (d : Dict κ (Dict κ ν)) : Prop where
  outer : (Dict.keys d).Nodup
  inner : ∀ a i, Dict.get d a = some i → (Dict.keys i).Nodup

theorem WF2.nil : WF2 ([] : Dict κ (Dict κ ν)) := ⟨by simp [Dict.keys], by simp⟩

theorem WF2.set {d : Dict κ (Dict κ ν)} (h : WF2 d) (a : κ) {i : Dict κ ν}
    (hi : (Dict.keys i).Nodup) : WF2 (Dict.set d a i) := by
  refine ⟨Dict.nodup_keys_set h.outer _ _, ?_⟩
  intro x j hj
  rw [Dict.get_set] at hj
  split at hj
  · cases hj; exact hi
  · exact h.inner x j hj

theorem get2_set (d : Dict κ (Dict κ ν)) (a : κ) (i : Dict κ ν) (x y : κ) :
    get2 (Dict.set d a i) x y = if a = x then Dict.get i y else get2 d x y := by
  unfold get2; rw [Dict.get_set]; split <;> simp

theorem get2_of_get {d : Dict κ (Dict κ ν)} {a : κ} {i : Dict κ ν} (h : Dict.get d a = some i) (b : κ) :
    get2 d a b = Dict.get i b := by simp [get2, h]

theorem get2_set_set {d : Dict κ (Dict κ ν)} {a : κ} {i : Dict κ ν} (h : Dict.get d a = some i)
    (b : κ) (v : ν) (x y : κ) :
    get2 (Dict.set d a (Dict.set i b v)) x y = if a = x ∧ b = y then some v else get2 d x y := by
  rw [get2_set, Dict.get_set]
  by_cases hx : a = x
  · subst hx; by_cases hy : b = y <;> simp [hy, get2_of_get h]
  · simp [hx]

theorem get2_set_del {d : Dict κ (Dict κ ν)} {a : κ} {i : Dict κ ν} (h : Dict.get d a = some i)
    (b : κ) (x y : κ) :
    get2 (Dict.set d a (Dict.del i b)) x y = if a = x ∧ b = y then none else get2 d x y := by
  rw [get2_set, Dict.get_del]
  by_cases hx : a = x
  · subst hx; by_cases hy : b = y <;> simp [hy, get2_of_get h]
  · simp [hx]

theorem get2_set_empty {d : Dict κ (Dict κ ν)} {a : κ} (h : Dict.get d a = none) (x y : κ) :
    get2 (Dict.set d a []) x y = get2 d x y := by
  rw [get2_set]; split
  · rename_i e; subst e; simp [get2, h]
  · rfl

end Py

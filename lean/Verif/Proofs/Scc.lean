import Verif.Model.IndepEq
import Verif.Spec.IndepEq
import Verif.Proofs.Transforms

/-!
Depth first search and strongly connected components.
-/

namespace Pymnet

open Py

variable {κ : Type} [DecidableEq κ]

/-- A run of depth first search from the equations `us`: `P` is the order in which equations are left. -/
inductive Run (E : κ → List κ) : (κ → Prop) → List κ → List κ → Prop
  | nil {V : κ → Prop} : Run E V [] []
  | skip {V : κ → Prop} {u : κ} {us P : List κ} : V u → Run E V us P → Run E V (u :: us) P
  | visit {V : κ → Prop} {u : κ} {us P Q : List κ} : ¬ V u → Run E (fun x => V x ∨ x = u) (E u) P →
      Run E (fun x => V x ∨ x = u ∨ x ∈ P) us Q → Run E V (u :: us) (P ++ u :: Q)

namespace Run

variable {E : κ → List κ} {V : κ → Prop} {us P : List κ}

theorem fresh (h : Run E V us P) : P.Nodup ∧ ∀ x ∈ P, ¬ V x := by
  induction h with
  | nil => simp
  | skip _ _ ih => exact ih
  | @visit V u us P Q hu _ _ ih1 ih2 =>
    refine ⟨?_, ?_⟩
    · rw [List.nodup_append]
      refine ⟨ih1.1, List.nodup_cons.2 ⟨fun hm => ih2.2 u hm (Or.inr (Or.inl rfl)), ih2.1⟩, ?_⟩
      rintro a ha b hb rfl
      rcases List.mem_cons.1 hb with rfl | hb
      · exact ih1.2 a ha (Or.inr rfl)
      · exact ih2.2 a hb (Or.inr (Or.inr ha))
    · intro x hx
      rcases List.mem_append.1 hx with hx | hx
      · exact fun h => ih1.2 x hx (Or.inl h)
      · rcases List.mem_cons.1 hx with rfl | hx
        · exact hu
        · exact fun h => ih2.2 x hx (Or.inl h)

theorem roots (h : Run E V us P) : ∀ u ∈ us, V u ∨ u ∈ P := by
  induction h with
  | nil => simp
  | skip hu _ ih =>
    intro x hx
    rcases List.mem_cons.1 hx with rfl | hx
    · exact Or.inl hu
    · exact ih x hx
  | visit hu _ _ ih1 ih2 =>
    intro x hx
    rcases List.mem_cons.1 hx with rfl | hx
    · exact Or.inr (by simp)
    · rcases ih2 x hx with (h | rfl | h) | h
      · exact Or.inl h
      · exact Or.inr (by simp)
      · exact Or.inr (by simp [h])
      · exact Or.inr (by simp [h])

theorem closed (h : Run E V us P) : ∀ x ∈ P, ∀ y ∈ E x, V y ∨ y ∈ P := by
  induction h with
  | nil => simp
  | skip _ _ ih => exact ih
  | visit hu h1 _ ih1 ih2 =>
    intro x hx y hy
    rcases List.mem_append.1 hx with hx | hx
    · rcases ih1 x hx y hy with (h | rfl) | h
      · exact Or.inl h
      · exact Or.inr (by simp)
      · exact Or.inr (by simp [h])
    · rcases List.mem_cons.1 hx with rfl | hx
      · rcases h1.roots y hy with (h | rfl) | h
        · exact Or.inl h
        · exact Or.inr (by simp)
        · exact Or.inr (by simp [h])
      · rcases ih2 x hx y hy with (h | rfl | h) | h
        · exact Or.inl h
        · exact Or.inr (by simp)
        · exact Or.inr (by simp [h])
        · exact Or.inr (by simp [h])

omit [DecidableEq κ] in
theorem rtg_mono {R S : κ → κ → Prop} (h : ∀ a b, R a b → S a b) {a b : κ} (hab : Relation.ReflTransGen R a b) :
    Relation.ReflTransGen S a b := by
  induction hab with
  | refl => exact .refl
  | tail _ h' ih => exact .tail ih (h _ _ h')

/-- A path that does not meet `V`. -/
abbrev Path (E : κ → List κ) (V : κ → Prop) : κ → κ → Prop := Relation.ReflTransGen fun a b => b ∈ E a ∧ ¬ V a ∧ ¬ V b

theorem Path.mono {V V' : κ → Prop} (hV : ∀ x, V x → V' x) {a b : κ} (h : Path E V' a b) : Path E V a b :=
  rtg_mono (fun _ _ h => ⟨h.1, fun e => h.2.1 (hV _ e), fun e => h.2.2 (hV _ e)⟩) h

theorem reached (h : Run E V us P) : ∀ x ∈ P, ∃ u ∈ us, ¬ V u ∧ Path E V u x := by
  induction h with
  | nil => simp
  | skip _ _ ih =>
    intro x hx
    obtain ⟨u, hu, h⟩ := ih x hx
    exact ⟨u, by simp [hu], h⟩
  | @visit V u us P Q hu h1 _ ih1 ih2 =>
    intro x hx
    rcases List.mem_append.1 hx with hx | hx
    · obtain ⟨w, hw, hw', hp⟩ := ih1 x hx
      refine ⟨u, by simp, hu, .head ⟨hw, hu, fun h => hw' (Or.inl h)⟩ (Path.mono (fun _ h => Or.inl h) hp)⟩
    · rcases List.mem_cons.1 hx with rfl | hx
      · exact ⟨_, by simp, hu, .refl⟩
      · obtain ⟨w, hw, hw', hp⟩ := ih2 x hx
        exact ⟨w, by simp [hw], fun h => hw' (Or.inl h), Path.mono (fun _ h => Or.inl h) hp⟩

omit [DecidableEq κ] in
/-- Everything that can be reached from a closed set is in it. -/
theorem path_closed {C V : κ → Prop} (hC : ∀ x, C x → ∀ y ∈ E x, ¬ V y → C y) {a b : κ} (h : Path E V a b) (ha : C a) : C b := by
  induction h with
  | refl => exact ha
  | tail _ h ih => exact hC _ ih _ h.1 h.2.2

/-- **The order of leaving.** If `v` is the last equation of `U` that is left, and there is a path inside `U` from `x` to `v`, then
there is a path from `v` to `x`. (`U` is the complement of `W`.) -/
theorem last (h : Run E V us P) : ∀ (W : κ → Prop) (A B : List κ) (v x : κ), (∀ y, V y → W y) → P = A ++ v :: B → (∀ y ∈ B, W y) → ¬ W v →
    x ∈ P → ¬ W x → Path E W x v → Relation.ReflTransGen (fun a b => b ∈ E a) v x := by
  induction h with
  | nil => intro W A B v x _ e; simp at e
  | skip _ _ ih => exact ih
  | @visit V u us P Q hu h1 h2 ih1 ih2 =>
    intro W A B v x hVW e hB hv hx hxW hp
    have hr : ∀ y ∈ P, Relation.ReflTransGen (fun a b => b ∈ E a) u y := by
      intro y hy
      obtain ⟨w, hw, -, hp⟩ := h1.reached y hy
      exact .head hw (rtg_mono (fun _ _ h => h.1) hp)
    -- where `v` is
    rcases List.append_eq_append_iff.1 e with ⟨C, e1, e2⟩ | ⟨C, e1, e2⟩
    · -- `A = P ++ C`
      cases C with
      | nil =>
        obtain ⟨rfl, rfl⟩ := List.cons.inj (by simpa using e2)
        rcases List.mem_append.1 hx with hx | hx
        · exact hr x hx
        · rcases List.mem_cons.1 hx with rfl | hx
          · exact .refl
          · exact absurd (hB x hx) hxW
      | cons c C =>
        obtain ⟨rfl, e3⟩ := List.cons.inj (by simpa using e2)
        have hcl : ∀ y, (y = u ∨ y ∈ P) → ∀ z ∈ E y, ¬ W z → z = u ∨ z ∈ P := by
          intro y hy z hz hzW
          rcases hy with rfl | hy
          · rcases h1.roots z hz with (h | h) | h
            · exact absurd (hVW z h) hzW
            · exact Or.inl h
            · exact Or.inr h
          · rcases h1.closed y hy z hz with (h | h) | h
            · exact absurd (hVW z h) hzW
            · exact Or.inl h
            · exact Or.inr h
        have hvQ : v ∈ Q := by rw [e3]; simp
        have hvn : ¬ (v = u ∨ v ∈ P) := fun h => h2.fresh.2 v hvQ (Or.inr h)
        have hxn : ¬ (x = u ∨ x ∈ P) := fun h => hvn (path_closed hcl hp h)
        have hxQ : x ∈ Q := by
          rcases List.mem_append.1 hx with h | h
          · exact absurd (Or.inr h) hxn
          · rcases List.mem_cons.1 h with h | h
            · exact absurd (Or.inl h) hxn
            · exact h
        refine ih2 (fun y => W y ∨ y = u ∨ y ∈ P) C B v x ?_ e3 (fun y hy => Or.inl (hB y hy)) ?_ hxQ ?_ ?_
        · rintro y (h | h)
          · exact Or.inl (hVW y h)
          · exact Or.inr h
        · rintro (h | h)
          · exact hv h
          · exact hvn h
        · rintro (h | h)
          · exact hxW h
          · exact hxn h
        · clear hx hxQ
          induction hp using Relation.ReflTransGen.head_induction_on with
          | refl => exact .refl
          | @head a c hac hcv ih =>
            have hcn : ¬ (c = u ∨ c ∈ P) := fun h => hvn (path_closed hcl hcv h)
            refine .head ⟨hac.1, ?_, ?_⟩ (ih hac.2.2 hcn)
            · rintro (h | h)
              · exact hac.2.1 h
              · exact hxn h
            · rintro (h | h)
              · exact hac.2.2 h
              · exact hcn h
    · -- `P = A ++ C`
      cases C with
      | nil =>
        obtain ⟨rfl, rfl⟩ := List.cons.inj (by simpa using e2)
        rcases List.mem_append.1 hx with hx | hx
        · exact hr x hx
        · rcases List.mem_cons.1 hx with rfl | hx
          · exact .refl
          · exact absurd (hB x hx) hxW
      | cons c C =>
        obtain ⟨rfl, e3⟩ := List.cons.inj (by simpa using e2)
        have hxP : x ∈ P := by
          rcases List.mem_append.1 hx with h | h
          · exact h
          · exact absurd (hB x (by rw [e3]; simp only [List.mem_append]; exact Or.inr h)) hxW
        refine ih1 W A C v x ?_ e1 (fun y hy => hB y (by rw [e3]; simp [hy])) hv hxP hxW hp
        rintro y (h | rfl)
        · exact hVW y h
        · exact hB y (by rw [e3]; simp)

end Run

/-- The links of an equation. -/
def succs (net : Dict κ (List κ)) (x : κ) : List κ := (Dict.get net x).getD []

theorem mem_succs {net : Dict κ (List κ)} {a b : κ} : b ∈ succs net a ↔ Spec.Arrow net a b := by
  unfold succs Spec.Arrow
  cases h : Dict.get net a with
  | none => simp
  | some bs => simp

/-- The number of keys that are not visited. -/
def unvisited (net : Dict κ (List κ)) (vis : List κ) : Nat := ((Dict.keys net).filter (· ∉ vis)).length

theorem unvisited_mono {net : Dict κ (List κ)} {vis vis' : List κ} (h : ∀ x ∈ vis, x ∈ vis') : unvisited net vis' ≤ unvisited net vis := by
  unfold unvisited
  rw [← List.countP_eq_length_filter, ← List.countP_eq_length_filter]
  refine List.countP_mono_left fun x _ hx => ?_
  simp only [decide_eq_true_eq] at hx ⊢
  exact fun h' => hx (h x h')

theorem unvisited_lt {net : Dict κ (List κ)} {vis vis' : List κ} (h : ∀ x ∈ vis, x ∈ vis') {v : κ} (hv : v ∈ Dict.keys net) (h1 : v ∉ vis)
    (h2 : v ∈ vis') : unvisited net vis' < unvisited net vis := by
  have e : (Dict.keys net).filter (· ∉ vis') = ((Dict.keys net).filter (· ∉ vis)).filter (· ∉ vis') := by
    rw [List.filter_filter]
    refine List.filter_congr fun x _ => ?_
    by_cases hx : x ∈ vis
    · simp [hx, h x hx]
    · simp [hx]
  unfold unvisited
  rw [e]
  refine List.length_filter_lt_length_iff_exists.2 ⟨v, ?_, by simpa using h2⟩
  rw [List.mem_filter]
  exact ⟨hv, by simpa using h1⟩

theorem Run.congr {E : κ → List κ} {V V' : κ → Prop} {us P : List κ} (h : Run E V us P) (e : ∀ x, V x ↔ V' x) : Run E V' us P := by
  rwa [show V' = V from funext fun x => propext (e x).symm]

/-- Internal: the loop of `explore` and `DFS`. -/
theorem search_loop {net : Dict κ (List κ)} {fuel : Nat}
    (ih : ∀ v vis post, v ∈ Dict.keys net → v ∉ vis → unvisited net vis ≤ fuel → vis.Nodup →
      ∃ vis' P, explore net fuel v (vis, post) = .ok (vis', post ++ (P ++ [v])) ∧ vis'.Nodup ∧
        (∀ x, x ∈ vis' ↔ x ∈ vis ∨ x = v ∨ x ∈ P) ∧ Run (succs net) (fun x => x ∈ vis ∨ x = v) (succs net v) P)
    (us : List κ) : ∀ vis post, (∀ u ∈ us, u ∈ Dict.keys net) → unvisited net vis ≤ fuel → vis.Nodup →
      ∃ vis' P, forE (fun (s : List κ × List κ) u => if u ∈ s.1 then .ok s else explore net fuel u s) us (vis, post) =
          .ok (vis', post ++ P) ∧ vis'.Nodup ∧ (∀ x, x ∈ vis' ↔ x ∈ vis ∨ x ∈ P) ∧ Run (succs net) (· ∈ vis) us P := by
  induction us with
  | nil => exact fun vis post _ _ hn => ⟨vis, [], by simp [forE], hn, by simp, .nil⟩
  | cons u us ihu =>
    intro vis post hus hf hn
    by_cases hu : u ∈ vis
    · obtain ⟨vis', P, h1, h2, h3, h4⟩ := ihu vis post (fun x hx => hus x (by simp [hx])) hf hn
      refine ⟨vis', P, ?_, h2, h3, .skip hu h4⟩
      rw [forE]
      simp only [hu, if_true]
      exact h1
    · obtain ⟨vis1, P, h1, h2, h3, h4⟩ := ih u vis post (hus u (by simp)) hu hf hn
      obtain ⟨vis2, Q, k1, k2, k3, k4⟩ := ihu vis1 (post ++ (P ++ [u])) (fun x hx => hus x (by simp [hx]))
        (le_trans (unvisited_mono fun x hx => (h3 x).2 (Or.inl hx)) hf) h2
      refine ⟨vis2, P ++ u :: Q, ?_, k2, ?_, .visit hu h4 (k4.congr h3)⟩
      · rw [forE]
        simp only [hu, if_false]
        rw [h1]
        simp only
        rw [k1]
        simp
      · intro x
        rw [k3, h3]
        simp only [List.mem_append, List.mem_cons]
        tauto

theorem explore_ok {net : Dict κ (List κ)} (hc : Spec.Closed net) (fuel : Nat) : ∀ v vis post, v ∈ Dict.keys net → v ∉ vis →
    unvisited net vis ≤ fuel → vis.Nodup →
      ∃ vis' P, explore net fuel v (vis, post) = .ok (vis', post ++ (P ++ [v])) ∧ vis'.Nodup ∧
        (∀ x, x ∈ vis' ↔ x ∈ vis ∨ x = v ∨ x ∈ P) ∧ Run (succs net) (fun x => x ∈ vis ∨ x = v) (succs net v) P := by
  induction fuel with
  | zero =>
    intro v vis post hv hnv hf
    have : 0 < unvisited net vis := List.length_pos_iff.2 (List.ne_nil_of_mem (List.mem_filter.2 ⟨hv, by simpa using hnv⟩))
    omega
  | succ fuel ih =>
    intro v vis post hv hnv hf hn
    obtain ⟨us, hus⟩ := Option.isSome_iff_exists.1 (Dict.mem_keys.1 hv)
    have hs : succs net v = us := by simp [succs, hus]
    have hlt := unvisited_lt (net := net) (vis := vis) (vis' := sadd vis v) (fun x hx => by simp [hx]) hv hnv (by simp)
    obtain ⟨vis', P, h1, h2, h3, h4⟩ := search_loop ih us (sadd vis v) post
      (fun u hu => hc v u (mem_succs.1 (by rw [hs]; exact hu))) (by omega) (nodup_sadd hn v)
    refine ⟨vis', P, ?_, h2, ?_, ?_⟩
    · rw [explore, hus]
      simp only
      rw [h1]
      simp
    · intro x
      rw [h3, mem_sadd]
      tauto
    · rw [hs]
      exact h4.congr fun x => mem_sadd

theorem unvisited_le (net : Dict κ (List κ)) (vis : List κ) : unvisited net vis ≤ net.length + 1 := by
  unfold unvisited
  refine le_trans (List.length_filter_le _ _) ?_
  simp [Dict.keys]

theorem dfs_ok {net : Dict κ (List κ)} (hc : Spec.Closed net) :
    ∃ P, dfs net = .ok P ∧ Run (succs net) (fun _ => False) (Dict.keys net) P := by
  obtain ⟨vis', P, h1, -, -, h4⟩ := search_loop (explore_ok hc (net.length + 1)) (Dict.keys net) [] [] (fun _ h => h)
    (unvisited_le net []) List.nodup_nil
  refine ⟨P, ?_, h4.congr (by simp)⟩
  unfold dfs
  rw [h1]
  simp

/-! ### `reverse` -/

theorem reverseNet_ok {net : Dict κ (List κ)} (hn : (Dict.keys net).Nodup) (hc : Spec.Closed net) :
    ∃ r, reverseNet net = .ok r ∧ (∀ x, x ∈ Dict.keys r ↔ x ∈ Dict.keys net) ∧ ∀ a b, Spec.Arrow r a b ↔ Spec.Arrow net b a := by
  have h0 : ∀ (l : Dict κ (List κ)) (d : Dict κ (List κ)) (x : κ), Dict.get (l.foldl (fun d p => Dict.set d p.1 []) d) x =
      if x ∈ Dict.keys l then some [] else Dict.get d x := by
    intro l
    induction l with
    | nil => intro d x; simp [Dict.keys]
    | cons p l ih =>
      intro d x
      rw [List.foldl_cons, ih, Dict.get_set]
      by_cases h1 : x ∈ Dict.keys l
      · rw [if_pos h1, if_pos (by simp only [Dict.keys, List.map_cons, List.mem_cons] at h1 ⊢; exact Or.inr h1)]
      · rw [if_neg h1]
        by_cases h2 : p.1 = x
        · rw [if_pos h2, if_pos (by simp [Dict.keys, h2])]
        · rw [if_neg h2, if_neg]
          simp only [Dict.keys, List.map_cons, List.mem_cons] at h1 ⊢
          rintro (h | h)
          · exact h2 h.symm
          · exact h1 h
  -- the invariant
  have inner : ∀ (e : κ) (us : List κ) (d : Dict κ (List κ)), (∀ u ∈ us, (Dict.get d u).isSome = true) →
      ∃ d', forE (addReversed e) us d = .ok d' ∧ (∀ x, (Dict.get d' x).isSome = (Dict.get d x).isSome) ∧
        ∀ a b, Spec.Arrow d' a b ↔ Spec.Arrow d a b ∨ (b = e ∧ a ∈ us) := by
    intro e us
    induction us with
    | nil => exact fun d _ => ⟨d, rfl, fun _ => rfl, by simp⟩
    | cons u us ih =>
      intro d hd
      obtain ⟨s, hs⟩ := Option.isSome_iff_exists.1 (hd u (by simp))
      have hsome : ∀ x, (Dict.get (Dict.set d u (sadd s e)) x).isSome = (Dict.get d x).isSome := by
        intro x
        rw [Dict.get_set]
        by_cases hx : u = x
        · subst hx; rw [if_pos rfl, hs]; rfl
        · rw [if_neg hx]
      obtain ⟨d', h1, h2, h3⟩ := ih (Dict.set d u (sadd s e)) (fun x hx => by rw [hsome]; exact hd x (by simp [hx]))
      refine ⟨d', ?_, fun x => (h2 x).trans (hsome x), ?_⟩
      · rw [forE]
        unfold addReversed
        rw [hs]
        exact h1
      · intro a b
        have hA : Spec.Arrow (Dict.set d u (sadd s e)) a b ↔ Spec.Arrow d a b ∨ (b = e ∧ a = u) := by
          unfold Spec.Arrow
          rw [Dict.get_set]
          by_cases ha : u = a
          · subst ha
            rw [if_pos rfl, hs]
            simp [mem_sadd]
          · rw [if_neg ha]
            have : ¬ a = u := fun e => ha e.symm
            simp [this]
        rw [h3, hA, List.mem_cons]
        tauto
  have outer : ∀ (l : Dict κ (List κ)) (d : Dict κ (List κ)), (∀ p ∈ l, ∀ u ∈ p.2, (Dict.get d u).isSome = true) →
      ∃ d', forE (fun d p => forE (addReversed p.1) p.2 d) l d = .ok d' ∧ (∀ x, (Dict.get d' x).isSome = (Dict.get d x).isSome) ∧
        ∀ a b, Spec.Arrow d' a b ↔ Spec.Arrow d a b ∨ ∃ p ∈ l, b = p.1 ∧ a ∈ p.2 := by
    intro l
    induction l with
    | nil => exact fun d _ => ⟨d, rfl, fun _ => rfl, by simp⟩
    | cons p l ih =>
      intro d hd
      obtain ⟨d1, h1, h2, h3⟩ := inner p.1 p.2 d (hd p (by simp))
      obtain ⟨d2, k1, k2, k3⟩ := ih d1 (fun q hq u hu => by rw [h2]; exact hd q (by simp [hq]) u hu)
      refine ⟨d2, ?_, fun x => (k2 x).trans (h2 x), fun a b => ?_⟩
      · rw [forE, h1]
        exact k1
      · rw [k3, h3]
        simp only [List.mem_cons, exists_eq_or_imp]
        tauto
  have hb := h0 net []
  obtain ⟨r, h1, h2, h3⟩ := outer net (net.foldl (fun d p => Dict.set d p.1 []) []) (by
    intro p hp u hu
    have : u ∈ Dict.keys net := hc p.1 u ⟨p.2, Dict.get_of_mem hn hp, hu⟩
    rw [hb, if_pos this]
    rfl)
  refine ⟨r, h1, fun x => ?_, fun a b => ?_⟩
  · rw [Dict.mem_keys, h2, hb]
    by_cases hx : x ∈ Dict.keys net
    · simp [hx]
    · simp [hx]
  · rw [h3]
    constructor
    · rintro (⟨bs, h, hm⟩ | ⟨p, hp, rfl, ha⟩)
      · rw [hb] at h
        by_cases hx : a ∈ Dict.keys net
        · rw [if_pos hx] at h
          obtain rfl := Option.some.inj h
          cases hm
        · rw [if_neg hx] at h
          cases h
      · exact ⟨p.2, Dict.get_of_mem hn hp, ha⟩
    · rintro ⟨bs, h, hm⟩
      exact Or.inr ⟨(b, bs), Dict.mem_of_get h, rfl, hm⟩

/-! ### `SCCs` -/

/-- What holds between two rounds of the loop of `SCCs`: `cs` are the components found, `B` the equations taken from `post`. -/
structure SccInv (net : Dict κ (List κ)) (cs : List (List κ)) (s : SccState κ) (B : List κ) : Prop where
  scc : s.scc = cs.zipIdx.map fun p => (p.2 + 1, p.1)
  k : s.k = cs.length + 1
  vis : ∀ x, x ∈ s.visited ↔ ∃ c ∈ cs, x ∈ c
  nodup : s.visited.Nodup
  keys : ∀ x ∈ s.visited, x ∈ Dict.keys net
  taken : ∀ x ∈ B, x ∈ s.visited
  nonempty : ∀ c ∈ cs, c ≠ [] ∧ c.Nodup
  cls : ∀ c ∈ cs, ∀ x ∈ c, ∀ y, y ∈ c ↔ Spec.EqReaches net x y ∧ Spec.EqReaches net y x
  once : ∀ (i j : Nat) (c d : List κ) (a : κ), cs[i]? = some c → cs[j]? = some d → a ∈ c → a ∈ d → i = j
  down : ∀ (i : Nat) (c : List κ) (a b : κ), cs[i]? = some c → a ∈ c → Spec.Arrow net a b → ∃ j d, cs[j]? = some d ∧ b ∈ d ∧ j ≤ i

theorem SccInv.closed {net : Dict κ (List κ)} {cs : List (List κ)} {s : SccState κ} {B : List κ} (h : SccInv net cs s B) {x y : κ}
    (hx : x ∈ s.visited) (hr : Spec.EqReaches net x y) : y ∈ s.visited := by
  induction hr with
  | refl => exact hx
  | tail _ ha ih =>
    obtain ⟨c, hc, hm⟩ := (h.vis _).1 ih
    obtain ⟨i, hi⟩ := List.getElem?_of_mem hc
    obtain ⟨j, d, hj, hb, -⟩ := h.down i c _ _ hi hm ha
    exact (h.vis _).2 ⟨d, List.mem_of_getElem? hj, hb⟩

theorem rtg_swap {R : κ → κ → Prop} {a b : κ} (h : Relation.ReflTransGen R a b) : Relation.ReflTransGen (fun x y => R y x) b a := by
  induction h with
  | refl => exact .refl
  | tail _ h ih => exact .head h ih

theorem set_zipIdx_eq {cs : List (List κ)} {c : List κ} :
    Dict.set (cs.zipIdx.map fun p => ((p.2 + 1, p.1) : Nat × List κ)) (cs.length + 1) c =
      (cs ++ [c]).zipIdx.map fun p => (p.2 + 1, p.1) := by
  have : ∀ (d : Dict Nat (List κ)) (k : Nat), (∀ p ∈ d, p.1 ≠ k) → Dict.set d k c = d ++ [(k, c)] := by
    intro d k
    induction d with
    | nil => intro _; rfl
    | cons p d ih =>
      intro h
      rw [Dict.set, if_neg (h p (by simp)), ih fun q hq => h q (by simp [hq])]
      rfl
  rw [this]
  · simp [List.zipIdx_append]
  · intro p hp
    obtain ⟨⟨c', i⟩, hq, rfl⟩ := List.mem_map.1 hp
    have := (List.mem_zipIdx hq).2.1
    simp at this ⊢
    omega

theorem SccInv.step {net : Dict κ (List κ)} (hc : Spec.Closed net) {cs : List (List κ)} {s : SccState κ} {B : List κ}
    (h : SccInv net cs s B) {v : κ} (hv : v ∈ Dict.keys net)
    (hlast : v ∉ s.visited → ∀ x, x ∉ s.visited → Run.Path (succs net) (· ∈ s.visited) v x → Spec.EqReaches net x v) :
    ∃ cs' s', sccStep net s v = .ok s' ∧ SccInv net cs' s' (v :: B) := by
  by_cases hvis : v ∈ s.visited
  · refine ⟨cs, s, by unfold sccStep; rw [if_pos hvis], { h with taken := ?_ }⟩
    intro x hx
    rcases List.mem_cons.1 hx with rfl | hx
    · exact hvis
    · exact h.taken x hx
  obtain ⟨vis', P, h1, h2, h3, h4⟩ := explore_ok hc (net.length + 1) v s.visited s.post2 hv hvis (unvisited_le _ _) h.nodup
  set C := vis'.filter (· ∉ s.visited) with hC
  have hrun : Run (succs net) (· ∈ s.visited) [v] (P ++ [v]) := .visit hvis h4 .nil
  have hmem : ∀ x, x ∈ C ↔ x ∈ P ++ [v] := by
    intro x
    rw [hC, List.mem_filter, h3]
    have := hrun.fresh.2 x
    simp only [decide_eq_true_eq, List.mem_append, List.mem_singleton] at this ⊢
    tauto
  have hvC : v ∈ C := (hmem v).2 (by simp)
  have hreach : ∀ x ∈ C, Run.Path (succs net) (· ∈ s.visited) v x := by
    intro x hx
    obtain ⟨u, hu, -, hp⟩ := hrun.reached x ((hmem x).1 hx)
    rw [List.mem_singleton.1 hu] at hp
    exact hp
  have hreach' : ∀ x ∈ C, Spec.EqReaches net v x := fun x hx => Run.rtg_mono (fun _ _ h => mem_succs.1 h.1) (hreach x hx)
  have hnot : ∀ x ∈ C, x ∉ s.visited := fun x hx => hrun.fresh.2 x ((hmem x).1 hx)
  have hback : ∀ x ∈ C, Spec.EqReaches net x v := fun x hx => hlast hvis x (hnot x hx) (hreach x hx)
  have hCk : ∀ x ∈ C, x ∈ Dict.keys net := by
    intro x hx
    have := hreach' x hx
    cases this with
    | refl => exact hv
    | tail _ ha => exact hc _ _ ha
  have hclosed : ∀ x ∈ C, ∀ y, Spec.Arrow net x y → y ∈ s.visited ∨ y ∈ C := by
    intro x hx y hy
    rcases hrun.closed x ((hmem x).1 hx) y (mem_succs.2 hy) with h | h
    · exact Or.inl h
    · exact Or.inr ((hmem y).2 h)
  have hin : ∀ y, Spec.EqReaches net v y → Spec.EqReaches net y v → y ∈ C := by
    intro y h5 h6
    have : y ∈ s.visited ∨ y ∈ C := by
      induction h5 with
      | refl => exact Or.inr hvC
      | tail h7 h8 ih =>
        rcases ih (.head h8 h6) with h9 | h9
        · exact Or.inl (h.closed h9 (.single h8))
        · exact hclosed _ h9 _ h8
    rcases this with h7 | h7
    · exact absurd (h.closed h7 h6) hvis
    · exact h7
  have hget : ∀ i c, (cs ++ [C])[i]? = some c → (cs[i]? = some c ∧ i < cs.length) ∨ (i = cs.length ∧ c = C) := by
    intro i c hi
    rcases Nat.lt_trichotomy i cs.length with hlt | rfl | hgt
    · rw [List.getElem?_append_left hlt] at hi
      exact Or.inl ⟨hi, hlt⟩
    · rw [List.getElem?_append_right (le_refl _)] at hi
      simp at hi
      exact Or.inr ⟨rfl, hi.symm⟩
    · rw [List.getElem?_eq_none (by simp; omega)] at hi
      cases hi
  refine ⟨cs ++ [C], { scc := Dict.set s.scc s.k C, k := s.k + 1, visited := vis', post2 := s.post2 ++ (P ++ [v]) }, ?_, ?_⟩
  · unfold sccStep
    rw [if_neg hvis, h1]
  · have hvis' : ∀ x, x ∈ vis' ↔ x ∈ s.visited ∨ x ∈ C := by
      intro x
      rw [h3, hmem]
      simp only [List.mem_append, List.mem_singleton]
      tauto
    constructor
    · simp only
      rw [h.scc, h.k, set_zipIdx_eq]
    · simp only
      rw [h.k]
      simp
    · intro x
      simp only
      rw [hvis', h.vis]
      simp only [List.mem_append, List.mem_singleton, or_and_right, exists_or, exists_eq_left]
    · exact h2
    · intro x hx
      rcases (hvis' x).1 hx with hx | hx
      · exact h.keys x hx
      · exact hCk x hx
    · intro x hx
      simp only
      rw [hvis']
      rcases List.mem_cons.1 hx with rfl | hx
      · exact Or.inr hvC
      · exact Or.inl (h.taken x hx)
    · intro c hc'
      rcases List.mem_append.1 hc' with hc' | hc'
      · exact h.nonempty c hc'
      · rw [List.mem_singleton.1 hc']
        exact ⟨List.ne_nil_of_mem hvC, h2.filter _⟩
    · intro c hc' x hx y
      rcases List.mem_append.1 hc' with hc' | hc'
      · exact h.cls c hc' x hx y
      · rw [List.mem_singleton.1 hc'] at hx ⊢
        constructor
        · intro hy
          exact ⟨(hback x hx).trans (hreach' y hy), (hback y hy).trans (hreach' x hx)⟩
        · rintro ⟨h5, h6⟩
          exact hin y ((hreach' x hx).trans h5) (h6.trans (hback x hx))
    · intro i j c d a hi hj ha hd
      rcases hget i c hi with ⟨hi, hi'⟩ | ⟨rfl, rfl⟩ <;> rcases hget j d hj with ⟨hj, hj'⟩ | ⟨rfl, rfl⟩
      · exact h.once i j c d a hi hj ha hd
      · exact absurd ((h.vis a).2 ⟨c, List.mem_of_getElem? hi, ha⟩) (hnot a hd)
      · exact absurd ((h.vis a).2 ⟨d, List.mem_of_getElem? hj, hd⟩) (hnot a ha)
      · rfl
    · intro i c a b hi ha hab
      rcases hget i c hi with ⟨hi, hi'⟩ | ⟨rfl, rfl⟩
      · obtain ⟨j, d, hj, hb, hle⟩ := h.down i c a b hi ha hab
        exact ⟨j, d, by rw [List.getElem?_append_left (by omega)]; exact hj, hb, hle⟩
      · rcases hclosed a ha b hab with hb | hb
        · obtain ⟨d, hd, hb⟩ := (h.vis b).1 hb
          obtain ⟨j, hj⟩ := List.getElem?_of_mem hd
          have := (List.getElem?_eq_some_iff.1 hj).1
          exact ⟨j, d, by rw [List.getElem?_append_left this]; exact hj, hb, by omega⟩
        · exact ⟨cs.length, C, by simp, hb, le_refl _⟩

theorem sccs_ok {net : Dict κ (List κ)} (hn : (Dict.keys net).Nodup) (hc : Spec.Closed net) :
    ∃ cs, sccs net = .ok (cs.zipIdx.map fun p => (p.2 + 1, p.1)) ∧ Spec.IsSccs net cs := by
  obtain ⟨r, r1, r2, r3⟩ := reverseNet_ok hn hc
  have hcr : Spec.Closed r := by
    rintro a b hab
    obtain ⟨bs, h, -⟩ := (r3 a b).1 hab
    exact (r2 b).2 (Dict.mem_keys.2 (by rw [h]; rfl))
  obtain ⟨P, p1, p2⟩ := dfs_ok hcr
  have hP : ∀ x, x ∈ P ↔ x ∈ Dict.keys net := by
    intro x
    rw [← r2]
    constructor
    · intro hx
      obtain ⟨u, hu, -, hp⟩ := p2.reached x hx
      cases hp with
      | refl => exact hu
      | tail _ ha => exact hcr _ _ (mem_succs.1 ha.1)
    · intro hx
      rcases p2.roots x hx with h | h
      · exact h.elim
      · exact h
  have loop : ∀ (A B : List κ) (cs : List (List κ)) (s : SccState κ), P = A.reverse ++ B → SccInv net cs s B →
      ∃ cs' s', forE (sccStep net) A s = .ok s' ∧ SccInv net cs' s' P := by
    intro A
    induction A with
    | nil => intro B cs s e h; exact ⟨cs, s, rfl, by rw [e]; exact h⟩
    | cons v A ih =>
      intro B cs s e h
      have e' : P = A.reverse ++ v :: B := by rw [e]; simp
      have hv : v ∈ P := by rw [e']; simp
      obtain ⟨cs1, s1, h1, h2⟩ := h.step hc ((hP v).1 hv) (by
        intro hvis x hx hp
        have hxk : x ∈ P := by
          rw [hP]
          cases hp with
          | refl => exact (hP _).1 hv
          | tail _ ha => exact hc _ _ (mem_succs.1 ha.1)
        have := p2.last (· ∈ s.visited) A.reverse B v x (fun _ h => h.elim) e' h.taken hvis hxk hx (by
          have := rtg_swap hp
          refine Run.rtg_mono ?_ this
          rintro a b ⟨h1, h2, h3⟩
          exact ⟨mem_succs.2 ((r3 a b).2 (mem_succs.1 h1)), h3, h2⟩)
        have := rtg_swap this
        exact Run.rtg_mono (fun a b h => (r3 b a).1 (mem_succs.1 h)) this)
      obtain ⟨cs2, s2, k1, k2⟩ := ih (v :: B) cs1 s1 e' h2
      refine ⟨cs2, s2, ?_, k2⟩
      rw [forE, h1]
      exact k1
  obtain ⟨cs, s, h1, h2⟩ := loop P.reverse [] [] { scc := [], k := 1, visited := [], post2 := [] } (by simp)
    { scc := rfl, k := rfl, vis := by simp, nodup := List.nodup_nil, keys := by simp, taken := by simp, nonempty := by simp,
      cls := by simp, once := by simp, down := by simp }
  refine ⟨cs, ?_, ?_⟩
  · unfold sccs
    rw [r1]
    simp only
    rw [p1]
    simp only
    rw [h1]
    simp only
    rw [h2.scc]
  · have hcover : ∀ a, a ∈ Dict.keys net ↔ ∃ c ∈ cs, a ∈ c := by
      intro a
      rw [← h2.vis]
      exact ⟨fun ha => h2.taken a ((hP a).2 ha), h2.keys a⟩
    refine ⟨h2.nonempty, hcover, h2.once, ?_, ?_⟩
    · intro a b ha _
      constructor
      · rintro ⟨c, hc', h3, h4⟩
        exact (h2.cls c hc' a h3 b).1 h4
      · intro h3
        obtain ⟨c, hc', h4⟩ := (hcover a).1 ha
        exact ⟨c, hc', h4, (h2.cls c hc' a h4 b).2 h3⟩
    · intro i j c d a b hi hj ha hb hab
      obtain ⟨j', d', hj', hb', hle⟩ := h2.down i c a b hi ha hab
      rw [h2.once j j' d d' b hj hj' hb hb']
      exact hle

end Pymnet

import Verif.Proofs.OrbitIso

/-! The tables of orbits: `automorphism_orbits`, `orbit_numbers`, `ordered_orbit_list`. -/

set_option linter.unusedSectionVars false
set_option linter.unusedSimpArgs false
set_option linter.unusedVariables false

namespace Pymnet

open Py MPlex

variable {α W β σ : Type} [DecidableEq α] [DecidableEq W] [Zero W] [LawfulIntNames α] [LinearOrder α] [DecidableEq σ] [One W]

theorem get_foldl_auts (d : Dict α α) (hd : (Dict.keys d).Nodup) (k j : Nat) (auts : Dict (Orbit α) α) (m i : Nat) (x : α) :
    Dict.get (d.foldl (fun a r => Dict.set a (k, j, r.1) r.2) auts) (m, i, x) =
      if m = k ∧ i = j ∧ x ∈ Dict.keys d then Dict.get d x else Dict.get auts (m, i, x) := by
  induction d generalizing auts with
  | nil => simp [Dict.keys]
  | cons r d ih =>
    obtain ⟨y, o⟩ := r
    have hy : y ∉ Dict.keys d ∧ (Dict.keys d).Nodup := by simpa [Dict.keys] using hd
    have hk : Dict.keys ((y, o) :: d) = y :: Dict.keys d := rfl
    rw [List.foldl_cons, ih hy.2, Dict.get_set, Dict.get_cons, hk]
    by_cases h1 : m = k ∧ i = j
    · obtain ⟨rfl, rfl⟩ := h1
      by_cases h2 : x ∈ Dict.keys d
      · have : y ≠ x := by rintro rfl; exact hy.1 h2
        simp [h2, this]
      · by_cases h3 : y = x
        · subst h3; simp [hy.1]
        · have : ¬ x = y := fun e => h3 e.symm
          simp [h2, h3, this]
    · have h2 : ¬ (m = k ∧ i = j ∧ x ∈ Dict.keys d) := fun h => h1 ⟨h.1, h.2.1⟩
      have h3 : ¬ (m = k ∧ i = j ∧ x ∈ y :: Dict.keys d) := fun h => h1 ⟨h.1, h.2.1⟩
      have h4 : ¬ ((k, j, y) : Orbit α) = (m, i, x) := by
        intro e; simp only [Prod.mk.injEq] at e; exact h1 ⟨e.1.symm, e.2.1.symm⟩
      rw [if_neg h2, if_neg h3, if_neg h4]

variable {canon : CGraph → β} {str : List (List α × Nat) × β → σ} {allowed : Option (List Nat)} {c : Coupling α W}
  {idx : Nat → α} {layers : List α} {nl N : Nat} {nets : Dict Nat (List (MPlex α W))} {invs : Dict σ (Nat × Nat)}
  {gens : CGraph → List (Dict Nat Nat)} {auts : Dict (Orbit α) α}

/-- Internal: what the table of orbits says about one network. -/
structure AutsOk (c : Coupling α W) (allowed : Option (List Nat)) (nets : Dict Nat (List (MPlex α W))) (auts : Dict (Orbit α) α) : Prop where
  val : ∀ m k ops, Stored nets m k (afterP [c] false 0 true ops) → ∀ x, (Spec.shown ops).node x →
    ∃ o, Dict.get auts (m, k, x) = some o ∧
      (∃ f0 f1, MIso (cplRel c) (Spec.mayChange 1 allowed) (Spec.shown ops) (Spec.shown ops) f0 f1 ∧ f0 x = o) ∧
      ∀ f0 f1, MIso (cplRel c) (Spec.mayChange 1 allowed) (Spec.shown ops) (Spec.shown ops) f0 f1 → o ≤ f0 x
  eq : ∀ m k ops, Stored nets m k (afterP [c] false 0 true ops) → ∀ x y, (Spec.shown ops).node x → (Spec.shown ops).node y →
    (Dict.get auts (m, k, x) = Dict.get auts (m, k, y) ↔
      ∃ f0 f1, MIso (cplRel c) (Spec.mayChange 1 allowed) (Spec.shown ops) (Spec.shown ops) f0 f1 ∧ f0 x = y)

/-- the orbits of one stored network -/
theorem stored_orbits (ok : GenOk canon str allowed c idx layers) (hG : Spec.FindsGens gens)
    (hT : NInv canon str allowed c idx nl layers N (nets, invs)) {m k : Nat} {p : MPlex α W} (hp : Stored nets m k p) :
    ∃ out, networkOrbits gens p.view allowed (p.slices.headD []) = .ok out ∧ (Dict.keys out).Nodup ∧
      ∀ ops, p = afterP [c] false 0 true ops → (∀ x, x ∈ Dict.keys out ↔ (Spec.shown ops).node x) ∧
      (∀ x, (Spec.shown ops).node x → ∃ o, Dict.get out x = some o ∧
        (∃ f0 f1, MIso (cplRel c) (Spec.mayChange 1 allowed) (Spec.shown ops) (Spec.shown ops) f0 f1 ∧ f0 x = o) ∧
        ∀ f0 f1, MIso (cplRel c) (Spec.mayChange 1 allowed) (Spec.shown ops) (Spec.shown ops) f0 f1 → o ≤ f0 x) ∧
      ∀ x y, (Spec.shown ops).node x → (Spec.shown ops).node y → (Dict.get out x = Dict.get out y ↔
        ∃ f0 f1, MIso (cplRel c) (Spec.mayChange 1 allowed) (Spec.shown ops) (Spec.shown ops) f0 f1 ∧ f0 x = y) := by
  obtain ⟨ops0, rfl, hg⟩ := hT.gen m k p hp
  have hm : 2 ≤ m := by
    obtain ⟨l, hl, -⟩ := hp
    exact ((hT.keys m).1 (by rw [hl]; rfl)).1
  have hn := mem_slices_one c ops0
  have hnd : ((afterP [c] false 0 true ops0).slices.headD []).Nodup := by
    have := (after_pinv (cs := [c]) (by simp) false 0 true ops0).core.snodup
    cases hsl : (afterP [c] false 0 true ops0).slices with
    | nil => simp
    | cons a t => rw [hsl] at this; exact this a (by simp)
  obtain ⟨out, e, hk, hv, heq⟩ := networkOrbits_core (gen_netOk ok hg).shows (by omega) ok.al hG hnd
    (fun x => by rw [if_pos rfl]; exact hn.1 x)
  refine ⟨out, e, by rw [hk]; exact hnd, fun ops hops => ?_⟩
  have hsh := shown_congr hops
  rw [← hsh]
  have hex : ∀ {Q : α → Prop} {x : α}, (∃ f, IsAuto 1 (Spec.mayChange 1 allowed)
      (fun a x => if a = 0 then (Spec.shown ops0).node x else (Spec.shown ops0).layer x) (Spec.HasNodeLayer 1 true ops0)
      (Spec.Linked [c] false true ops0) f ∧ Q (f 0 x)) ↔
      ∃ f0 f1, MIso (cplRel c) (Spec.mayChange 1 allowed) (Spec.shown ops0) (Spec.shown ops0) f0 f1 ∧ Q (f0 x) := by
    intro Q x
    constructor
    · rintro ⟨f, hf, h⟩
      exact ⟨f 0, f 1, (iso_shown (gen_node hg hm) (gen_layer hg ok.idx hm) f).1 hf, h⟩
    · rintro ⟨f0, f1, hf, h⟩
      exact ⟨fun a => if a = 0 then f0 else f1, (iso_shown (gen_node hg hm) (gen_layer hg ok.idx hm) _).2 hf, h⟩
  refine ⟨fun x => by rw [hk]; exact hn.1 x, fun x hx => ?_, fun x y hx hy => ?_⟩
  · obtain ⟨o, h1, h2, h3⟩ := hv x (by rwa [if_pos rfl])
    refine ⟨o, h1, (hex (Q := (· = o))).1 h2, fun f0 f1 hf => ?_⟩
    exact h3 (fun a => if a = 0 then f0 else f1) ((iso_shown (gen_node hg hm) (gen_layer hg ok.idx hm) _).2 hf)
  · rw [heq x y (by rwa [if_pos rfl]) (by rwa [if_pos rfl])]
    exact hex (Q := (· = y))

theorem automorphismOrbitsAll_spec (ok : GenOk canon str allowed c idx layers) (hG : Spec.FindsGens gens)
    (hT : NInv canon str allowed c idx nl layers N (nets, invs)) :
    ∃ auts, automorphismOrbitsAll gens allowed nets = .ok auts ∧ AutsOk c allowed nets auts := by
  set A : (Nat → Nat → Prop) → Dict (Orbit α) α → Prop := fun D auts => ∀ m k p, Stored nets m k p → D m k →
    ∀ out, networkOrbits gens p.view allowed (p.slices.headD []) = .ok out → ∀ x ∈ Dict.keys out,
      Dict.get auts (m, k, x) = Dict.get out x with hA
  obtain ⟨auts, e, h⟩ := forE_ok (f := fun (auts : Dict (Orbit α) α) k =>
    match Dict.get nets k with
    | none => .error .keyError
    | some l => forE (fun auts q =>
        match networkOrbits gens q.1.view allowed (q.1.slices.headD []) with
        | .error err => .error err
        | .ok d => .ok (d.foldl (fun a r => Dict.set a (k, q.2, r.1) r.2) auts)) l.zipIdx auts) (s := [])
    (P := fun pre auts => A (fun m _ => m ∈ pre) auts) (Dict.keys nets) (by intro m k p _ h; simp at h) (by
      intro pre k post auts hl h
      obtain ⟨l, hlk⟩ := Option.isSome_iff_exists.1 ((Dict.mem_keys (d := nets) (k := k)).1 (by rw [hl]; simp))
      simp only [hlk]
      obtain ⟨auts', e', h'⟩ := forE_ok (f := fun (auts : Dict (Orbit α) α) (q : MPlex α W × Nat) =>
        match networkOrbits gens q.1.view allowed (q.1.slices.headD []) with
        | .error err => .error err
        | .ok d => .ok (d.foldl (fun a r => Dict.set a (k, q.2, r.1) r.2) auts)) (s := auts)
        (P := fun pre' auts => A (fun m i => m ∈ pre ∨ (m = k ∧ i < pre'.length)) auts) l.zipIdx
        (by intro m i p hp hD; exact h m i p hp (by simpa using hD)) (by
          rintro pre' ⟨p, j⟩ post' auts hl' h'
          have hj : l[j]? = some p := List.mem_zipIdx_iff_getElem?.1 (show (p, j) ∈ l.zipIdx by rw [hl']; simp)
          have hjl : j = pre'.length := by
            have := congrArg (·[pre'.length]?) hl'
            simp only [List.getElem?_append_right (le_refl _), Nat.sub_self, List.getElem?_cons_zero, List.getElem?_zipIdx] at this
            cases hh : l[pre'.length]? with
            | none => rw [hh] at this; simp at this
            | some q => rw [hh] at this; simp at this; exact this.2.symm
          obtain ⟨out, e1, hnd, -⟩ := stored_orbits ok hG hT ⟨l, hlk, hj⟩
          refine ⟨_, by dsimp only; rw [e1], ?_⟩
          intro m i p' hp' hD out' e2 x hx
          rw [get_foldl_auts out hnd]
          by_cases hmi : m = k ∧ i = j
          · obtain ⟨rfl, rfl⟩ := hmi
            obtain ⟨l', h5, h6⟩ := hp'
            rw [hlk] at h5; cases h5
            rw [hj] at h6; cases h6
            rw [e1] at e2; cases e2
            rw [if_pos ⟨rfl, rfl, hx⟩]
          · rw [if_neg (fun h => hmi ⟨h.1, h.2.1⟩)]
            refine h' m i p' hp' ?_ out' e2 x hx
            rcases hD with hD | ⟨rfl, hD⟩
            · exact Or.inl hD
            · refine Or.inr ⟨rfl, ?_⟩
              rw [List.length_append, List.length_singleton] at hD
              have : i ≠ j := fun e => hmi ⟨rfl, e⟩
              omega)
      refine ⟨auts', e', ?_⟩
      intro m i p hp hD
      refine h' m i p hp ?_
      rcases List.mem_append.1 hD with hD | hD
      · exact Or.inl hD
      · simp at hD
        subst hD
        refine Or.inr ⟨rfl, ?_⟩
        obtain ⟨l', h5, h6⟩ := hp
        rw [hlk] at h5; cases h5
        have := (List.getElem?_eq_some_iff.1 h6).1
        simpa using this)
  refine ⟨auts, e, ?_⟩
  have hall : ∀ m k p, Stored nets m k p → ∀ out, networkOrbits gens p.view allowed (p.slices.headD []) = .ok out →
      ∀ x ∈ Dict.keys out, Dict.get auts (m, k, x) = Dict.get out x := fun m k p hp => h m k p hp (by
    obtain ⟨l, hl, -⟩ := hp
    rw [Dict.mem_keys, hl]; rfl)
  constructor
  · intro m k ops hp x hx
    obtain ⟨out, e1, -, h1⟩ := stored_orbits ok hG hT hp
    obtain ⟨h2, h3, -⟩ := h1 ops rfl
    rw [hall m k _ hp out e1 x ((h2 x).2 hx)]
    exact h3 x hx
  · intro m k ops hp x y hx hy
    obtain ⟨out, e1, -, h1⟩ := stored_orbits ok hG hT hp
    obtain ⟨h2, -, h3⟩ := h1 ops rfl
    rw [hall m k _ hp out e1 x ((h2 x).2 hx), hall m k _ hp out e1 y ((h2 y).2 hy)]
    exact h3 x y hx hy

/-- two stored networks that are isomorphic are the same -/
theorem stored_unique (ok : GenOk canon str allowed c idx layers)
    (hT : NInv canon str allowed c idx nl layers N (nets, invs)) {m k m' k' : Nat} {ops ops' : List (POp α W)}
    (hp : Stored nets m k (afterP [c] false 0 true ops)) (hp' : Stored nets m' k' (afterP [c] false 0 true ops')) {f0 f1 : α → α}
    (hf : MIso (cplRel c) (Spec.mayChange 1 allowed) (Spec.shown ops) (Spec.shown ops') f0 f1) : m = m' ∧ k = k' := by
  obtain ⟨ops1, e1, g1⟩ := hT.gen m k _ hp
  obtain ⟨ops2, e2, g2⟩ := hT.gen m' k' _ hp'
  have hm : 2 ≤ m := by
    obtain ⟨l, hl, -⟩ := hp
    exact ((hT.keys m).1 (by rw [hl]; rfl)).1
  have s1 := shown_congr e1
  have s2 := shown_congr e2
  obtain ⟨k1, k2, j1, j2, hiff⟩ := gen_keys ok g1 g2
  have hk := hiff.2 ((isomorphic_iff (gen_node g1 hm) (gen_layer g1 ok.idx hm)).2 ⟨f0, f1, by rw [← s1, ← s2]; exact hf⟩)
  subst hk
  have a1 := (hT.inv k1 m k).2 ⟨_, hp, by rw [e1]; exact j1⟩
  have a2 := (hT.inv k1 m' k').2 ⟨_, hp', by rw [e2]; exact j2⟩
  rw [a1] at a2
  cases a2
  exact ⟨rfl, rfl⟩

/-- the orbit that is looked up, and roles -/
theorem role_iff (ok : GenOk canon str allowed c idx layers)
    (hT : NInv canon str allowed c idx nl layers N (nets, invs)) (hA : AutsOk c allowed nets auts) {g : Spec.Multigraph α} {v : α}
    (hv : g.node v) {m k m' k' : Nat} {ops ops' : List (POp α W)} (hp : Stored nets m k (afterP [c] false 0 true ops))
    (hp' : Stored nets m' k' (afterP [c] false 0 true ops')) {f0 f1 : α → α}
    (hf : MIso (cplRel c) (Spec.mayChange 1 allowed) g (Spec.shown ops) f0 f1) {o : α}
    (ho : (Spec.shown ops').node o ∧ Dict.get auts (m', k', o) = some o) :
    (m = m' ∧ k = k' ∧ Dict.get auts (m, k, f0 v) = some o) ↔
      ∃ e0 e1, MIso (cplRel c) (Spec.mayChange 1 allowed) g (Spec.shown ops') e0 e1 ∧ e0 v = o := by
  have hfv : (Spec.shown ops).node (f0 v) := hf.nodes.mapsTo hv
  constructor
  · rintro ⟨rfl, rfl, h⟩
    obtain ⟨l, h1, h2⟩ := hp
    obtain ⟨l', h1', h2'⟩ := hp'
    have : l' = l := by rw [h1] at h1'; cases h1'; rfl
    subst this
    rw [h2] at h2'
    have hs := shown_congr (Option.some.inj h2')
    rw [← hs] at ho ⊢
    obtain ⟨a0, a1, ha, rfl⟩ := (hA.eq m k ops ⟨_, h1, h2⟩ (f0 v) o hfv ho.1).1 (by rw [h, ho.2])
    exact ⟨_, _, hf.trans ha, rfl⟩
  · rintro ⟨e0, e1, he, rfl⟩
    have : Inhabited α := ⟨v⟩
    obtain ⟨b0, b1, hb, hb1, hb2⟩ := hf.symm
    have hc := hb.trans he
    obtain ⟨rfl, rfl⟩ := stored_unique ok hT hp hp' hc
    refine ⟨rfl, rfl, ?_⟩
    have hs : Spec.shown ops = Spec.shown ops' := by
      obtain ⟨l, h1, h2⟩ := hp
      obtain ⟨l', h1', h2'⟩ := hp'
      have : l' = l := by rw [h1] at h1'; cases h1'; rfl
      subst this
      rw [h2] at h2'
      exact shown_congr (Option.some.inj h2')
    rw [← hs] at hc ho
    rw [← ho.2]
    exact (hA.eq m k ops hp _ _ hfv ho.1).2 ⟨_, _, hc, by simp [hb1 v hv]⟩

/-! ### numbers of orbits -/

/-- Internal: the numbers are the positions of the keys. -/
def Num (is : Dict (Orbit α) Nat) : Prop :=
  (Dict.keys is).Nodup ∧ ∀ (i : Nat) q, Dict.get is q = some i ↔ (Dict.keys is)[i]? = some q

/-- Internal: numbers exactly the orbits with `P`. -/
def Numbers (f : Dict (Orbit α) Nat → Except Err (Dict (Orbit α) Nat)) (P : Orbit α → Prop) : Prop :=
  ∀ is, Num is → ∃ is', f is = .ok is' ∧ Num is' ∧ ∀ q, q ∈ Dict.keys is' ↔ q ∈ Dict.keys is ∨ P q

theorem Numbers.forE {δ : Type} {f : Dict (Orbit α) Nat → δ → Except Err (Dict (Orbit α) Nat)} {P : δ → Orbit α → Prop} (l : List δ)
    (h : ∀ b ∈ l, Numbers (fun c => f c b) (P b)) : Numbers (forE f l) (fun t => ∃ b ∈ l, P b t) := by
  intro c hc
  obtain ⟨c', e, h1, h2⟩ := forE_ok (f := f) (s := c)
    (P := fun pre c' => Num c' ∧ ∀ t, t ∈ Dict.keys c' ↔ t ∈ Dict.keys c ∨ ∃ b ∈ pre, P b t) l ⟨hc, by simp⟩ (by
      intro pre b post s hl ⟨h1, h2⟩
      obtain ⟨s', e, h3, h4⟩ := h b (by simp [hl]) s h1
      refine ⟨s', e, h3, fun t => ?_⟩
      rw [h4, h2]
      simp only [List.mem_append, List.mem_singleton]
      constructor
      · rintro ((h | ⟨b', h5, h6⟩) | h)
        · exact Or.inl h
        · exact Or.inr ⟨b', Or.inl h5, h6⟩
        · exact Or.inr ⟨b, Or.inr rfl, h⟩
      · rintro (h | ⟨b', h5 | rfl, h6⟩)
        · exact Or.inl (Or.inl h)
        · exact Or.inl (Or.inr ⟨b', h5, h6⟩)
        · exact Or.inr h6)
  exact ⟨c', e, h1, h2⟩

theorem numberNode_spec {k j : Nat} {x o : α} (h : Dict.get auts (k, j, x) = some o) :
    Numbers (fun is => numberNode auts k j is x) (fun q => q = (k, j, o)) := by
  intro is hi
  unfold numberNode
  simp only [h]
  by_cases hh : Dict.has is (k, j, o) = true
  · refine ⟨is, by rw [if_pos hh], hi, fun q => ⟨Or.inl, ?_⟩⟩
    rintro (h | rfl)
    · exact h
    · exact Dict.mem_keys_iff_has.2 hh
  · have hn : (k, j, o) ∉ Dict.keys is := fun h => hh (Dict.mem_keys_iff_has.1 h)
    have hk : Dict.keys (Dict.set is (k, j, o) is.length) = Dict.keys is ++ [(k, j, o)] := by
      rw [Dict.keys_set, if_neg hn]
    have hlen : (Dict.keys is).length = is.length := by simp [Dict.keys]
    refine ⟨_, by rw [if_neg hh], ⟨Dict.nodup_keys_set hi.1 _ _, fun i q => ?_⟩, fun q => by rw [hk]; simp⟩
    rw [Dict.get_set, hk, List.getElem?_append, hlen]
    by_cases hq : (k, j, o) = q
    · subst hq
      rw [if_pos rfl]
      by_cases hlt : i < is.length
      · rw [if_pos hlt]
        constructor
        · intro e; simp at e; omega
        · intro e; exact absurd (List.mem_of_getElem? e) hn
      · rw [if_neg hlt]
        constructor
        · intro e; simp at e; subst e; simp
        · intro e
          have := (List.getElem?_eq_some_iff.1 e).1
          simp at this
          congr 1; omega
    · rw [if_neg hq, hi.2]
      by_cases hlt : i < is.length
      · rw [if_pos hlt]
      · rw [if_neg hlt, List.getElem?_eq_none (by omega)]
        refine iff_of_false (by simp) fun e => ?_
        have := List.mem_of_getElem? e
        simp at this
        exact hq this.symm

theorem orbitNumbers_spec (hT : NInv canon str allowed c idx nl layers N (nets, invs)) (hA : AutsOk c allowed nets auts) {n : Nat}
    (hn : n ≤ N) :
    ∃ is, orbitNumbers n nets auts = .ok is ∧ Num is ∧ ∀ q, q ∈ Dict.keys is ↔
      q.1 ≤ n ∧ ∃ ops x, Stored nets q.1 q.2.1 (afterP [c] false 0 true ops) ∧ (Spec.shown ops).node x ∧
        Dict.get auts (q.1, q.2.1, x) = some q.2.2 := by
  have hall : ∀ k ∈ List.range' 2 (n - 1), ∃ l, Dict.get nets k = some l ∧ ∀ q ∈ l.zipIdx, Stored nets k q.2 q.1 ∧
      ∃ ops, q.1 = afterP [c] false 0 true ops := by
    intro k hk
    rw [List.mem_range'_1] at hk
    obtain ⟨l, hl⟩ := Option.isSome_iff_exists.1 ((hT.keys k).2 ⟨by omega, by omega⟩)
    refine ⟨l, hl, fun q hq => ?_⟩
    have hst : Stored nets k q.2 q.1 := ⟨l, hl, List.mem_zipIdx_iff_getElem?.1 hq⟩
    obtain ⟨ops, e, -⟩ := hT.gen _ _ _ hst
    exact ⟨hst, ops, e⟩
  obtain ⟨is, e, h1, h2⟩ := (Numbers.forE (f := fun is k =>
    match Dict.get nets k with
    | none => .error .keyError
    | some l => forE (fun is (q : MPlex α W × Nat) => forE (numberNode auts k q.2) (q.1.slices.headD []) is) l.zipIdx is)
    (P := fun k q => ∃ l, Dict.get nets k = some l ∧ ∃ r ∈ l.zipIdx, ∃ x ∈ r.1.slices.headD [],
      q.1 = k ∧ q.2.1 = r.2 ∧ Dict.get auts (k, r.2, x) = some q.2.2) (List.range' 2 (n - 1)) (by
    intro k hk
    obtain ⟨l, hl, hq⟩ := hall k hk
    intro is hi
    obtain ⟨is', e, h1, h2⟩ := Numbers.forE (f := fun is (q : MPlex α W × Nat) => forE (numberNode auts k q.2) (q.1.slices.headD []) is)
      (P := fun r q => ∃ x ∈ r.1.slices.headD [], q.1 = k ∧ q.2.1 = r.2 ∧ Dict.get auts (k, r.2, x) = some q.2.2) l.zipIdx (by
      intro r hr
      obtain ⟨hst, ops, hops⟩ := hq r hr
      refine Numbers.forE _ fun x hx => ?_
      rw [hops] at hx
      obtain ⟨o, ho, -⟩ := hA.val k r.2 ops (by rw [← hops]; exact hst) x (((mem_slices_one c ops).1 x).1 hx)
      intro is hi
      obtain ⟨is', e, h1, h2⟩ := numberNode_spec ho is hi
      refine ⟨is', e, h1, fun q => ?_⟩
      rw [h2, ho]
      refine or_congr_right ?_
      obtain ⟨a, b, d⟩ := q
      simp only [Prod.mk.injEq, Option.some.injEq]
      exact and_congr_right fun _ => and_congr_right fun _ => eq_comm) is hi
    refine ⟨is', by dsimp only; rw [hl]; exact e, h1, fun q => ?_⟩
    rw [h2]
    refine or_congr_right ⟨fun h => ⟨l, hl, h⟩, ?_⟩
    rintro ⟨l', hl', h⟩
    rw [hl] at hl'; cases hl'
    exact h)) [] ⟨by simp [Dict.keys], by simp [Dict.keys]⟩
  refine ⟨is, e, h1, fun q => ?_⟩
  rw [h2]
  simp only [Dict.keys, List.map_nil, List.not_mem_nil, false_or]
  constructor
  · rintro ⟨k, hk, l, hl, r, hr, x, hx, hq1, hq2, hau⟩
    obtain ⟨l', hl', hq⟩ := hall k hk
    rw [hl] at hl'; cases hl'
    obtain ⟨hst, ops, hops⟩ := hq r hr
    rw [List.mem_range'_1] at hk
    refine ⟨by omega, ops, x, by rw [hq1, hq2, ← hops]; exact hst, ?_, by rw [hq1, hq2]; exact hau⟩
    rw [hops] at hx
    exact ((mem_slices_one c ops).1 x).1 hx
  · rintro ⟨hle, ops, x, hst, hx, hau⟩
    obtain ⟨l, hl, hlk⟩ := hst
    have := (hT.keys q.1).1 (by rw [hl]; rfl)
    refine ⟨q.1, by rw [List.mem_range'_1]; omega, l, hl, (_, q.2.1), List.mem_zipIdx_iff_getElem?.2 hlk, x, ?_, rfl, rfl, hau⟩
    exact ((mem_slices_one c ops).1 x).2 hx

theorem orderedOrbitList_spec {is : Dict (Orbit α) Nat} (h : Num is) :
    orderedOrbitList is = .ok ((Dict.keys is).map some) := by
  have hlen : (Dict.keys is).length = is.length := by simp [Dict.keys]
  obtain ⟨l, e, hl⟩ := forE_ok (f := fun (l : List (Option (Orbit α))) orbit =>
    match Dict.get is orbit with
    | none => .error .keyError
    | some i => if i < l.length then .ok (l.set i (some orbit)) else .error .indexError) (s := List.replicate is.length none)
    (P := fun pre l => l = pre.map some ++ List.replicate (is.length - pre.length) none) (Dict.keys is) (by simp) (by
      rintro pre q post l hk rfl
      have hq : (Dict.keys is)[pre.length]? = some q := by rw [hk]; simp
      have hlt := (List.getElem?_eq_some_iff.1 hq).1
      rw [hlen] at hlt
      have hg := (h.2 _ _).2 hq
      obtain ⟨r, hr⟩ : ∃ r, is.length - pre.length = r + 1 := ⟨is.length - pre.length - 1, by omega⟩
      refine ⟨_, by rw [hg]; dsimp only; rw [if_pos (by simp; omega)], ?_⟩
      rw [hr, List.set_append_right _ _ (by simp)]
      have : is.length - (pre ++ [q]).length = r := by simp; omega
      rw [this]
      simp [List.replicate_succ])
  refine (show orderedOrbitList is = .ok l from e).trans ?_
  rw [hl, hlen]
  simp

end Pymnet

import Verif.Model.Graphlets
import Verif.Proofs.Build
import Verif.Proofs.Overlay
import Verif.Proofs.Subnet
import Verif.Proofs.IsomCore
import Mathlib.Logic.Relation
import Mathlib.Order.Lattice
import Mathlib.GroupTheory.OrderOfElement

/-! `automorphism_orbits` computes reachability along the generators, one edge at a time. -/

namespace Pymnet

open Py Relation

variable {κ : Type} [DecidableEq κ]

/-- there is a path along the pairs of `E` -/
def Reach (E : List (κ × κ)) : κ → κ → Prop := ReflTransGen fun u v => (u, v) ∈ E

omit [DecidableEq κ] in
theorem Reach.mono {E E' : List (κ × κ)} (h : E ⊆ E') {j k : κ} (hr : Reach E j k) : Reach E' j k :=
  ReflTransGen.mono (fun _ _ h' => h h') _ _ hr

omit [DecidableEq κ] in
theorem reach_snoc {E : List (κ × κ)} {u v j k : κ} :
    Reach (E ++ [(u, v)]) j k ↔ Reach E j k ∨ (Reach E j u ∧ Reach E v k) := by
  constructor
  · intro h
    induction h with
    | refl => exact .inl .refl
    | @tail b c _ hbc ih =>
      rcases List.mem_append.1 hbc with hbc | hbc
      · rcases ih with h | ⟨h1, h2⟩
        · exact .inl (h.tail hbc)
        · exact .inr ⟨h1, h2.tail hbc⟩
      · simp only [List.mem_singleton, Prod.mk.injEq] at hbc
        obtain ⟨rfl, rfl⟩ := hbc
        rcases ih with h | ⟨h1, h2⟩
        · exact .inr ⟨h, .refl⟩
        · exact .inr ⟨h1, .refl⟩
  · have hm : E ⊆ E ++ [(u, v)] := by intro x hx; simp [hx]
    rintro (h | ⟨h1, h2⟩)
    · exact h.mono hm
    · exact ((h1.mono hm).tail (by simp)).trans (h2.mono hm)

omit [DecidableEq κ] in
theorem reach_mem {vs : List κ} {E : List (κ × κ)} (hE : ∀ p ∈ E, p.1 ∈ vs → p.2 ∈ vs) {j k : κ} (hj : j ∈ vs)
    (h : Reach E j k) : k ∈ vs := by
  induction h with
  | refl => exact hj
  | tail _ hbc ih => exact hE _ hbc ih

theorem mem_foldl_sadd {t s : List κ} {x : κ} : x ∈ t.foldl sadd s ↔ x ∈ s ∨ x ∈ t := by
  induction t generalizing s with
  | nil => simp
  | cons y t ih => simp [ih, or_assoc]

/-- the set of every node in `pre` is given by `Q`, of the others by `P` -/
def OrbInv (vs pre : List κ) (P Q : κ → κ → Prop) (d : Dict κ (List κ)) : Prop :=
  ∀ j ∈ vs, ∃ s, Dict.get d j = some s ∧ ∀ k, k ∈ s ↔ if j ∈ pre then Q j k else P j k

theorem orbitStep_inv {vs : List κ} {E : List (κ × κ)} {u v : κ} (hE : ∀ p ∈ E, p.1 ∈ vs → p.2 ∈ vs)
    (huv : u ∈ vs → v ∈ vs) {d : Dict κ (List κ)} {pre : List κ} {j : κ} (hj : j ∈ vs) (hjp : j ∉ pre)
    (h : OrbInv vs pre (Reach E) (Reach (E ++ [(u, v)])) d) :
    ∃ d', orbitStep u v d j = .ok d' ∧ OrbInv vs (pre ++ [j]) (Reach E) (Reach (E ++ [(u, v)])) d' := by
  obtain ⟨s, hs, hsk⟩ := h j hj
  simp only [hjp, if_false] at hsk
  have hv : ∀ k, Reach (E ++ [(u, v)]) v k ↔ Reach E v k := by
    intro k; rw [reach_snoc]; tauto
  unfold orbitStep
  rw [hs]
  by_cases hu : u ∈ s
  · have hju : Reach E j u := (hsk u).1 hu
    obtain ⟨t, ht, htk⟩ := h v (huv (reach_mem hE hj hju))
    have htk' : ∀ k, k ∈ t ↔ Reach E v k := by
      intro k; rw [htk]; split
      · exact hv k
      · rfl
    refine ⟨Dict.set d j (t.foldl sadd s), by simp only [hu, if_true, ht], ?_⟩
    intro i hi
    rw [Dict.get_set]
    by_cases hij : j = i
    · subst hij
      refine ⟨t.foldl sadd s, by simp, ?_⟩
      intro k
      rw [mem_foldl_sadd, hsk, htk', if_pos (by simp), reach_snoc]
      tauto
    · obtain ⟨s', hs', hk'⟩ := h i hi
      refine ⟨s', by simp [hij, hs'], ?_⟩
      intro k
      have : i ≠ j := fun e => hij e.symm
      simpa [this] using hk' k
  · refine ⟨d, by simp [hu], ?_⟩
    intro i hi
    obtain ⟨s', hs', hk'⟩ := h i hi
    refine ⟨s', hs', ?_⟩
    intro k
    by_cases hij : i = j
    · subst hij
      rw [hs] at hs'; cases hs'
      rw [hsk, if_pos (by simp), reach_snoc]
      have : ¬ Reach E i u := fun h => hu ((hsk u).2 h)
      tauto
    · simpa [hij] using hk' k

theorem orbitEdge_inv {vs : List κ} (hn : vs.Nodup) {E : List (κ × κ)} {u v : κ} (hE : ∀ p ∈ E, p.1 ∈ vs → p.2 ∈ vs)
    (huv : u ∈ vs → v ∈ vs) {d : Dict κ (List κ)} (h : OrbInv vs [] (Reach E) (Reach E) d) :
    ∃ d', forE (orbitStep u v) vs d = .ok d' ∧
      OrbInv vs [] (Reach (E ++ [(u, v)])) (Reach (E ++ [(u, v)])) d' := by
  obtain ⟨d', h1, h2⟩ := forE_ok (f := orbitStep u v)
    (P := fun pre d => OrbInv vs pre (Reach E) (Reach (E ++ [(u, v)])) d) vs (s := d)
    (by intro j hj; obtain ⟨s, hs, hk⟩ := h j hj; exact ⟨s, hs, by simpa using hk⟩)
    (by
      intro pre b post s hl hP
      refine orbitStep_inv hE huv (by simp [hl]) ?_ hP
      rw [hl, List.nodup_append] at hn
      intro hb
      exact hn.2.2 b hb b (by simp) rfl)
  refine ⟨d', h1, ?_⟩
  intro j hj
  obtain ⟨s, hs, hk⟩ := h2 j hj
  exact ⟨s, hs, by simpa [hj] using hk⟩

theorem get_foldl_init (vs : List κ) (d : Dict κ (List κ)) (j : κ) :
    Dict.get (vs.foldl (fun d v => Dict.set d v [v]) d) j = if j ∈ vs then some [j] else Dict.get d j := by
  induction vs generalizing d with
  | nil => simp
  | cons a t ih =>
    rw [List.foldl_cons, ih, Dict.get_set]
    by_cases h : j ∈ t
    · simp [h]
    · by_cases h2 : a = j
      · subst h2; simp
      · have : j ≠ a := fun e => h2 e.symm
        simp [h, h2, this]

/-- The sets computed by the loops are the sets of nodes that can be reached along the items of the generators. -/
theorem orbitSets_spec {vs : List κ} (hn : vs.Nodup) {gens : List (List (κ × κ))}
    (hE : ∀ a ∈ gens, ∀ p ∈ a, p.1 ∈ vs → p.2 ∈ vs) :
    ∃ d, orbitSets vs gens = .ok d ∧ ∀ j ∈ vs, ∃ s, Dict.get d j = some s ∧ ∀ k, k ∈ s ↔ Reach gens.flatten j k := by
  unfold orbitSets
  have hflat : ∀ d : Dict κ (List κ), forE (fun d a => forE (fun d p => forE (orbitStep p.1 p.2) vs d) a d) gens d =
      forE (fun d p => forE (orbitStep p.1 p.2) vs d) gens.flatten d := by
    intro d
    have hE' := hE
    clear hE hE'
    induction gens generalizing d with
    | nil => rfl
    | cons a t ih =>
      simp only [forE, List.flatten_cons, forE_append]
      cases forE (fun d p => forE (orbitStep p.1 p.2) vs d) a d with
      | error e => rfl
      | ok d => simp only [ih]
  rw [hflat]
  obtain ⟨d', h1, h2⟩ := forE_ok (f := fun d (p : κ × κ) => forE (orbitStep p.1 p.2) vs d)
    (P := fun E d => OrbInv vs [] (Reach E) (Reach E) d) gens.flatten
    (s := vs.foldl (fun d v => Dict.set d v [v]) [])
    (by
      intro j hj
      refine ⟨[j], by rw [get_foldl_init]; simp [hj], ?_⟩
      intro k
      simp only [List.mem_singleton, List.not_mem_nil, if_false]
      constructor
      · rintro rfl; exact .refl
      · intro h
        rcases h.cases_head with rfl | ⟨c, hc, _⟩
        · rfl
        · simp at hc)
    (by
      intro pre b post s hl hP
      have hmem : ∀ p ∈ gens.flatten, p.1 ∈ vs → p.2 ∈ vs := by
        intro p hp
        obtain ⟨a, ha, hpa⟩ := List.mem_flatten.1 hp
        exact hE a ha p hpa
      exact orbitEdge_inv hn (fun p hp => hmem p (by rw [hl]; simp [hp])) (hmem b (by rw [hl]; simp)) hP)
  refine ⟨d', h1, fun j hj => ?_⟩
  obtain ⟨s, hs, hk⟩ := h2 j hj
  exact ⟨s, hs, by simpa using hk⟩

omit [DecidableEq κ] in
theorem foldl_min_mem [LinearOrder κ] (t : List κ) (a : κ) :
    t.foldl min a ∈ a :: t ∧ ∀ x ∈ a :: t, t.foldl min a ≤ x := by
  induction t generalizing a with
  | nil => simp
  | cons b t ih =>
    obtain ⟨h1, h2⟩ := ih (min a b)
    rw [List.foldl_cons]
    constructor
    · rcases List.mem_cons.1 h1 with h | h
      · rw [h]; rcases min_choice a b with h | h <;> rw [h] <;> simp
      · simp [h]
    · intro x hx
      have hm := h2 (min a b) (by simp)
      rcases List.mem_cons.1 hx with rfl | hx
      · exact hm.trans (min_le_left _ _)
      · rcases List.mem_cons.1 hx with rfl | hx
        · exact hm.trans (min_le_right _ _)
        · exact h2 x (by simp [hx])

/-- the loop of the minima -/
theorem orbitMins_spec [LinearOrder κ] {vs : List κ} (hn : vs.Nodup) {d : Dict κ (List κ)} {Q : κ → κ → Prop}
    (hd : ∀ j ∈ vs, ∃ s, Dict.get d j = some s ∧ ∀ k, k ∈ s ↔ Q j k) (hQ : ∀ j ∈ vs, Q j j) :
    ∃ out, orbitMins vs d = .ok out ∧ Dict.keys out = vs ∧
      ∀ j ∈ vs, ∃ m, Dict.get out j = some m ∧ Q j m ∧ ∀ k, Q j k → m ≤ k := by
  obtain ⟨out, h1, h2, h3⟩ := forE_ok (f := fun (out : Dict κ κ) v =>
      match Dict.get d v with
      | none => .error .keyError
      | some s =>
        match minE s with
        | .error e => .error e
        | .ok m => .ok (Dict.set out v m))
    (P := fun pre out => Dict.keys out = pre ∧
      ∀ j ∈ pre, ∃ m, Dict.get out j = some m ∧ Q j m ∧ ∀ k, Q j k → m ≤ k) vs (s := [])
    (by simp [Dict.keys])
    (by
      rintro pre b post out hl ⟨hk, hP⟩
      have hb : b ∈ vs := by simp [hl]
      obtain ⟨s, hs, hsk⟩ := hd b hb
      have hbs : b ∈ s := (hsk b).2 (hQ b hb)
      obtain ⟨a, t, rfl⟩ : ∃ a t, s = a :: t := by
        cases s with
        | nil => simp at hbs
        | cons a t => exact ⟨a, t, rfl⟩
      refine ⟨Dict.set out b (t.foldl min a), by simp only [hs, minE], ?_, ?_⟩
      · have : b ∉ pre := by
          rw [hl, List.nodup_append] at hn
          intro h; exact hn.2.2 b h b (by simp) rfl
        rw [Dict.keys_set, hk, if_neg this]
      · intro j hj
        rw [Dict.get_set]
        by_cases hbj : b = j
        · subst hbj
          refine ⟨_, by simp, (hsk _).1 (foldl_min_mem t a).1, ?_⟩
          intro k hk
          exact (foldl_min_mem t a).2 k ((hsk k).2 hk)
        · have : j ≠ b := fun e => hbj e.symm
          simp only [hbj, if_false]
          exact hP j (by simpa [this] using hj))
  exact ⟨out, h1, h2, h3⟩

/-! ### Automorphisms -/

variable {α : Type}

theorem applyTo_comp (f g : Nat → α → α) (nl : List α) :
    Spec.applyTo f (Spec.applyTo g nl) = Spec.applyTo (fun a x => f a (g a x)) nl := by
  simp [Spec.applyTo, List.mapIdx_mapIdx, Function.comp_def]

theorem applyTo_id (nl : List α) : Spec.applyTo (fun _ x => x) nl = nl := by
  apply List.ext_getElem <;> simp [Spec.applyTo]

theorem isomorphism_refl (d : Nat) (allowed : List Nat) (S : Nat → α → Prop) (NL : List α → Prop)
    (L : List α → List α → Prop) : Spec.Isomorphism d allowed S NL L S NL L fun _ x => x where
  fixed _ _ _ _ := rfl
  bij _ _ _ := Set.bijOn_id _
  nodeLayers u := by simp [applyTo_id]
  links u v _ _ := by simp [applyTo_id]

theorem isomorphism_trans {d : Nat} {allowed : List Nat} {S S' S'' : Nat → α → Prop} {NL NL' NL'' : List α → Prop}
    {L L' L'' : List α → List α → Prop} {f g : Nat → α → α} (hf : Spec.Isomorphism d allowed S NL L S' NL' L' f)
    (hg : Spec.Isomorphism d allowed S' NL' L' S'' NL'' L'' g) :
    Spec.Isomorphism d allowed S NL L S'' NL'' L'' fun a x => g a (f a x) where
  fixed a ha hn x := by rw [hf.fixed a ha hn, hg.fixed a ha hn]
  bij a ha hm := (hg.bij a ha hm).comp (hf.bij a ha hm)
  nodeLayers u := by
    rw [hg.nodeLayers]
    constructor
    · rintro ⟨nl, hnl, rfl⟩
      obtain ⟨nl', h', rfl⟩ := (hf.nodeLayers nl).1 hnl
      exact ⟨nl', h', applyTo_comp _ _ _⟩
    · rintro ⟨nl, hnl, rfl⟩
      exact ⟨_, (hf.nodeLayers _).2 ⟨nl, hnl, rfl⟩, (applyTo_comp _ _ _).symm⟩
  links u v hu hv := by
    rw [hf.links u v hu hv, hg.links _ _ ((hf.nodeLayers _).2 ⟨u, hu, rfl⟩) ((hf.nodeLayers _).2 ⟨v, hv, rfl⟩),
      applyTo_comp, applyTo_comp]

omit [DecidableEq κ] in
/-- along bijections of a finite set every step can be undone -/
theorem reach_symm {vs : List κ} {E : List (κ × κ)}
    (hE : ∀ p ∈ E, p.1 ∈ vs → ∃ f : κ → κ, Set.BijOn f {x | x ∈ vs} {x | x ∈ vs} ∧ f p.1 = p.2 ∧
      ∀ x ∈ vs, f x = x ∨ (x, f x) ∈ E)
    {j k : κ} (hj : j ∈ vs) (h : Reach E j k) : k ∈ vs ∧ Reach E k j := by
  induction h with
  | refl => exact ⟨hj, .refl⟩
  | @tail b c _ hbc ih =>
    obtain ⟨hb, hr⟩ := ih
    obtain ⟨f, hf, hfb, hstep⟩ := hE _ hbc hb
    simp only at hfb
    have hc : c ∈ vs := hfb ▸ hf.mapsTo hb
    refine ⟨hc, ReflTransGen.trans ?_ hr⟩
    have hiter : ∀ n, f^[n] c ∈ vs ∧ Reach E c (f^[n] c) := by
      intro n
      induction n with
      | zero => exact ⟨hc, .refl⟩
      | succ n ih =>
        rw [Function.iterate_succ_apply']
        refine ⟨hf.mapsTo ih.1, ?_⟩
        rcases hstep _ ih.1 with h | h
        · rw [h]; exact ih.2
        · exact ih.2.tail h
    have hfin : Finite {x // x ∈ {x | x ∈ vs}} := (List.finite_toSet vs).to_subtype
    let e : Equiv.Perm {x // x ∈ {x | x ∈ vs}} := hf.equiv f
    have he : ∀ (n : Nat) (x : {x // x ∈ {x | x ∈ vs}}), ((e ^ n) x).1 = f^[n] x.1 := by
      intro n
      induction n with
      | zero => intro x; rfl
      | succ n ih => intro x; rw [pow_succ', Equiv.Perm.mul_apply, Function.iterate_succ_apply', ← ih]; rfl
    have hpos : 0 < orderOf e := orderOf_pos e
    have h1 : f^[orderOf e] b = b := by
      have := he (orderOf e) ⟨b, hb⟩
      rw [pow_orderOf_eq_one] at this
      exact this.symm
    obtain ⟨n, hn⟩ : ∃ n, orderOf e = n + 1 := ⟨orderOf e - 1, by omega⟩
    rw [hn, Function.iterate_succ_apply, hfb] at h1
    have := (hiter n).2
    rwa [h1] at this

/-- the orbits along generators that are bijections -/
theorem orbits_core [LinearOrder κ] {vs : List κ} (hn : vs.Nodup) {gens : List (List (κ × κ))}
    (hE : ∀ p ∈ gens.flatten, p.1 ∈ vs → ∃ f : κ → κ, Set.BijOn f {x | x ∈ vs} {x | x ∈ vs} ∧ f p.1 = p.2 ∧
      ∀ x ∈ vs, f x = x ∨ (x, f x) ∈ gens.flatten) :
    ∃ d out, orbitSets vs gens = .ok d ∧ orbitMins vs d = .ok out ∧ Dict.keys out = vs ∧
      (∀ x ∈ vs, ∃ m, Dict.get out x = some m ∧ Reach gens.flatten x m ∧ ∀ k, Reach gens.flatten x k → m ≤ k) ∧
      ∀ x ∈ vs, ∀ y ∈ vs, (Dict.get out x = Dict.get out y ↔ Reach gens.flatten x y) := by
  obtain ⟨d, hd, hds⟩ := orbitSets_spec hn (gens := gens) (by
    intro a ha p hp hpv
    obtain ⟨f, hf, h1, _⟩ := hE p (List.mem_flatten.2 ⟨a, ha, hp⟩) hpv
    rw [← h1]; exact hf.mapsTo hpv)
  obtain ⟨out, ho, hk, hm⟩ := orbitMins_spec hn hds fun j _ => .refl
  refine ⟨d, out, hd, ho, hk, hm, fun x hx y hy => ?_⟩
  obtain ⟨a, ha, hxa, hla⟩ := hm x hx
  obtain ⟨b, hb, hyb, hlb⟩ := hm y hy
  rw [ha, hb, Option.some.injEq]
  constructor
  · rintro rfl
    exact hxa.trans (reach_symm hE hy hyb).2
  · intro h
    have h' := (reach_symm hE hx h).2
    exact le_antisymm (hla b (h.trans hyb)) (hlb a (h'.trans hxa))

variable {W : Type} [DecidableEq α] [DecidableEq W] [LinearOrder α]

omit [LinearOrder α] in
theorem mem_items {a : Dict α α} {u v : α} : (u, v) ∈ items a ↔ u ∈ Dict.keys a ∧ v = (Dict.get a u).getD u := by
  simp only [items, List.mem_map, Prod.mk.injEq]
  constructor
  · rintro ⟨k, hk, rfl, rfl⟩; exact ⟨hk, rfl⟩
  · rintro ⟨hk, rfl⟩; exact ⟨u, hk, rfl, rfl⟩

/-- `f` is an automorphism -/
abbrev IsAuto (d : Nat) (al : List Nat) (S : Nat → α → Prop) (NL : List α → Prop) (L : List α → List α → Prop) :=
  Spec.Isomorphism d al S NL L S NL L

/-- the orbits of the nodes of a network -/
theorem networkOrbits_core {v : View α W} {d : Nat} {S : Nat → α → Prop} {NL : List α → Prop}
    {L : List α → List α → Prop} {allowed : Option (List Nat)} (h : Shows v d S NL L) (hd : 1 ≤ d)
    (hal : ∀ a ∈ Spec.mayChange d allowed, a ≤ d) {gens : CGraph → List (Dict Nat Nat)} (hG : Spec.FindsGens gens)
    {nodes : List α} (hn : nodes.Nodup) (hm : ∀ x, x ∈ nodes ↔ S 0 x) :
    ∃ out, networkOrbits gens v allowed nodes = .ok out ∧ Dict.keys out = nodes ∧
      (∀ x, S 0 x → ∃ o, Dict.get out x = some o ∧
        (∃ f, IsAuto d (Spec.mayChange d allowed) S NL L f ∧ f 0 x = o) ∧
        ∀ f, IsAuto d (Spec.mayChange d allowed) S NL L f → o ≤ f 0 x) ∧
      ∀ x y, S 0 x → S 0 y → (Dict.get out x = Dict.get out y ↔
        ∃ f, IsAuto d (Spec.mayChange d allowed) S NL L f ∧ f 0 x = y) := by
  obtain ⟨ps, hps, h1, h2⟩ := generators_core h hd hal hG false
  have hD : ∀ p ∈ ps, ∀ u v, (u, v) ∈ items (p.headD []) ↔ S 0 u ∧ Spec.permOf p 0 u ≠ u ∧ v = Spec.permOf p 0 u := by
    intro p hp u v
    obtain ⟨_, _, h3⟩ := h1 p hp
    obtain ⟨D, hD, hk⟩ := h3 0 (Nat.zero_le _)
    have hh : p.headD [] = D := by
      cases p with
      | nil => simp at hD
      | cons a t => simpa using hD
    have hv : (Dict.get D u).getD u = Spec.permOf p 0 u := by simp [Spec.permOf, hD]
    rw [hh, mem_items, hk, hv]
    simp [and_assoc]
  have hflat : ∀ u v, (u, v) ∈ ((ps.map fun p => items (p.headD [])).flatten) ↔
      ∃ p ∈ ps, S 0 u ∧ Spec.permOf p 0 u ≠ u ∧ v = Spec.permOf p 0 u := by
    intro u v
    simp only [List.mem_flatten, List.mem_map]
    constructor
    · rintro ⟨_, ⟨p, hp, rfl⟩, hm⟩; exact ⟨p, hp, (hD p hp u v).1 hm⟩
    · rintro ⟨p, hp, hm⟩; exact ⟨_, ⟨p, hp, rfl⟩, (hD p hp u v).2 hm⟩
  have hbij : ∀ f, IsAuto d (Spec.mayChange d allowed) S NL L f → Set.BijOn (f 0) {x | x ∈ nodes} {x | x ∈ nodes} := by
    intro f hf
    have he : {x | x ∈ nodes} = {x | S 0 x} := by ext x; exact hm x
    rw [he]
    by_cases h0 : 0 ∈ Spec.mayChange d allowed
    · exact hf.bij 0 (Nat.zero_le _) h0
    · have : f 0 = id := by funext x; exact hf.fixed 0 (Nat.zero_le _) h0 x
      rw [this]; exact Set.bijOn_id _
  have hreach : ∀ x y, S 0 x → (Reach ((ps.map fun p => items (p.headD [])).flatten) x y ↔
      ∃ f, IsAuto d (Spec.mayChange d allowed) S NL L f ∧ f 0 x = y) := by
    intro x y hx
    constructor
    · intro hr
      induction hr with
      | refl => exact ⟨_, isomorphism_refl _ _ _ _ _, rfl⟩
      | tail _ hbc ih =>
        obtain ⟨f, hf, hfx⟩ := ih
        obtain ⟨p, hp, _, _, hc⟩ := (hflat _ _).1 hbc
        exact ⟨_, isomorphism_trans hf (h1 p hp).2.1, by rw [hc, hfx]⟩
    · rintro ⟨f, hf, rfl⟩
      obtain ⟨qs, hq, hfq⟩ := h2 f hf
      rw [hfq 0 (Nat.zero_le _) x hx]
      clear hfq
      suffices S 0 (qs.foldr (fun m y => Spec.permOf m 0 y) x) ∧
          Reach ((ps.map fun p => items (p.headD [])).flatten) x (qs.foldr (fun m y => Spec.permOf m 0 y) x) from this.2
      induction qs with
      | nil => exact ⟨hx, .refl⟩
      | cons q qs ih =>
        obtain ⟨ih1, ih2⟩ := ih fun m hm => hq m (by simp [hm])
        have hqp := hq q (by simp)
        have hmap := (hbij _ (h1 q hqp).2.1).mapsTo ((hm _).2 ih1)
        refine ⟨(hm _).1 hmap, ?_⟩
        rw [List.foldr_cons]
        by_cases he : Spec.permOf q 0 (qs.foldr (fun m y => Spec.permOf m 0 y) x) =
            qs.foldr (fun m y => Spec.permOf m 0 y) x
        · rw [he]; exact ih2
        · exact ih2.tail ((hflat _ _).2 ⟨q, hqp, ih1, he, rfl⟩)
  obtain ⟨dd, out, e1, e2, e3, e4, e5⟩ := orbits_core hn (gens := ps.map fun p => items (p.headD [])) (by
    rintro ⟨u, v⟩ hp hu
    obtain ⟨p, hpp, _, _, hv⟩ := (hflat u v).1 hp
    refine ⟨Spec.permOf p 0, hbij _ (h1 p hpp).2.1, hv.symm, fun x hx => ?_⟩
    by_cases he : Spec.permOf p 0 x = x
    · exact .inl he
    · exact .inr ((hflat _ _).2 ⟨p, hpp, (hm x).1 hx, he, rfl⟩))
  refine ⟨out, ?_, e3, ?_, ?_⟩
  · unfold networkOrbits automorphismOrbits
    simp only [hps, List.map_map, Function.comp_def, e1, e2]
  · intro x hx
    obtain ⟨o, ho, hr, hl⟩ := e4 x ((hm x).2 hx)
    exact ⟨o, ho, (hreach x o hx).1 hr, fun f hf => hl _ ((hreach x _ hx).2 ⟨f, hf, rfl⟩)⟩
  · intro x y hx hy
    rw [e5 x ((hm x).2 hx) y ((hm y).2 hy), hreach x y hx]

omit [LinearOrder α] in
theorem mem_pairItems {a : Dict α α × Dict α α} {n l n' l' : α} :
    (toLex (n, l), toLex (n', l')) ∈ pairItems a ↔ n ∈ Dict.keys a.1 ∧ l ∈ Dict.keys a.2 ∧
      n' = (Dict.get a.1 n).getD n ∧ l' = (Dict.get a.2 l).getD l := by
  simp only [pairItems, List.mem_flatMap, List.mem_map, Prod.exists, mem_items, Prod.mk.injEq,
    EmbeddingLike.apply_eq_iff_eq]
  constructor
  · rintro ⟨_, _, ⟨h1, h2⟩, _, _, ⟨h3, h4⟩, ⟨rfl, rfl⟩, rfl, rfl⟩; exact ⟨h1, h3, h2, h4⟩
  · rintro ⟨h1, h3, h2, h4⟩; exact ⟨_, _, ⟨h1, h2⟩, _, _, ⟨h3, h4⟩, ⟨rfl, rfl⟩, rfl, rfl⟩

/-- the orbits of the node-layers of a network with one aspect -/
theorem networkOrbitsNl_core {v : View α W} {S : Nat → α → Prop} {NL : List α → Prop}
    {L : List α → List α → Prop} {allowed : Option (List Nat)} (h : Shows v 1 S NL L)
    (hal : ∀ a ∈ Spec.mayChange 1 allowed, a ≤ 1) {gens : CGraph → List (Dict Nat Nat)} (hG : Spec.FindsGens gens)
    {nls : List (α ×ₗ α)} (hn : nls.Nodup) (hm : ∀ n l, toLex (n, l) ∈ nls ↔ NL [n, l]) :
    ∃ out, networkOrbitsNl gens v allowed nls = .ok out ∧ Dict.keys out = nls ∧
      (∀ n l, NL [n, l] → ∃ o, Dict.get out (toLex (n, l)) = some o ∧
        (∃ f, IsAuto 1 (Spec.mayChange 1 allowed) S NL L f ∧ toLex (f 0 n, f 1 l) = o) ∧
        ∀ f, IsAuto 1 (Spec.mayChange 1 allowed) S NL L f → o ≤ toLex (f 0 n, f 1 l)) ∧
      ∀ n l n' l', NL [n, l] → NL [n', l'] → (Dict.get out (toLex (n, l)) = Dict.get out (toLex (n', l')) ↔
        ∃ f, IsAuto 1 (Spec.mayChange 1 allowed) S NL L f ∧ f 0 n = n' ∧ f 1 l = l') := by
  have hNL : ∀ n l, NL [n, l] → S 0 n ∧ S 1 l := fun n l hnl =>
    ⟨h.names.2 _ hnl 0 n rfl, h.names.2 _ hnl 1 l rfl⟩
  obtain ⟨ps, hps, h1, h2⟩ := generators_core h le_rfl hal hG true
  set E := (ps.map fun p => pairItems (p.headD [], (p[1]?).getD [])).flatten with hEdef
  have hD : ∀ p ∈ ps, ∀ n l n' l', (toLex (n, l), toLex (n', l')) ∈ pairItems (p.headD [], (p[1]?).getD []) ↔
      S 0 n ∧ S 1 l ∧ n' = Spec.permOf p 0 n ∧ l' = Spec.permOf p 1 l := by
    intro p hp n l n' l'
    obtain ⟨_, _, h3⟩ := h1 p hp
    obtain ⟨D, hD, hk⟩ := h3 0 (by omega)
    obtain ⟨D', hD', hk'⟩ := h3 1 le_rfl
    have hh : p.headD [] = D := by
      cases p with
      | nil => simp at hD
      | cons a t => simpa using hD
    have hv : (Dict.get D n).getD n = Spec.permOf p 0 n := by simp [Spec.permOf, hD]
    have hv' : (Dict.get D' l).getD l = Spec.permOf p 1 l := by simp [Spec.permOf, hD']
    rw [hh, hD', Option.getD_some, mem_pairItems]
    simp only [hk, hk', hv, hv', true_or, and_true]
  have hflat : ∀ n l n' l', (toLex (n, l), toLex (n', l')) ∈ E ↔
      ∃ p ∈ ps, S 0 n ∧ S 1 l ∧ n' = Spec.permOf p 0 n ∧ l' = Spec.permOf p 1 l := by
    intro n l n' l'
    simp only [hEdef, List.mem_flatten, List.mem_map]
    constructor
    · rintro ⟨_, ⟨p, hp, rfl⟩, hm⟩; exact ⟨p, hp, (hD p hp n l n' l').1 hm⟩
    · rintro ⟨p, hp, hm⟩; exact ⟨_, ⟨p, hp, rfl⟩, (hD p hp n l n' l').2 hm⟩
  have happ : ∀ (f : Nat → α → α) n l, Spec.applyTo f [n, l] = [f 0 n, f 1 l] := by
    intro f n l; simp [Spec.applyTo, List.mapIdx_cons]
  have hmaps : ∀ f, IsAuto 1 (Spec.mayChange 1 allowed) S NL L f → ∀ n l, NL [n, l] → NL [f 0 n, f 1 l] := by
    intro f hf n l hnl
    exact (hf.nodeLayers _).2 ⟨_, hnl, (happ f n l).symm⟩
  have hbij : ∀ f, IsAuto 1 (Spec.mayChange 1 allowed) S NL L f →
      Set.BijOn (fun x : α ×ₗ α => toLex (f 0 (ofLex x).1, f 1 (ofLex x).2)) {x | x ∈ nls} {x | x ∈ nls} := by
    intro f hf
    have hmt : Set.MapsTo (fun x : α ×ₗ α => toLex (f 0 (ofLex x).1, f 1 (ofLex x).2)) {x | x ∈ nls} {x | x ∈ nls} := by
      intro x hx
      exact (hm _ _).2 (hmaps f hf _ _ ((hm _ _).1 hx))
    refine ((List.finite_toSet nls).surjOn_iff_bijOn_of_mapsTo hmt).1 ?_
    intro x hx
    obtain ⟨nl, hnl, he⟩ := (hf.nodeLayers _).1 ((hm (ofLex x).1 (ofLex x).2).1 hx)
    obtain ⟨a, b, rfl⟩ : ∃ a b, nl = [a, b] := by
      have := congrArg List.length he
      simp [Spec.applyTo] at this
      match nl, this with
      | [a, b], _ => exact ⟨a, b, rfl⟩
    rw [happ] at he
    simp only [List.cons.injEq, and_true] at he
    refine ⟨toLex (a, b), (hm a b).2 hnl, ?_⟩
    simp only [ofLex_toLex, ← he.1, ← he.2]
    rfl
  have hreach : ∀ n l n' l', NL [n, l] → (Reach E (toLex (n, l)) (toLex (n', l')) ↔
      ∃ f, IsAuto 1 (Spec.mayChange 1 allowed) S NL L f ∧ f 0 n = n' ∧ f 1 l = l') := by
    intro n l n' l' hnl
    constructor
    · intro hr
      suffices ∀ z, Reach E (toLex (n, l)) z →
          ∃ f, IsAuto 1 (Spec.mayChange 1 allowed) S NL L f ∧ f 0 n = (ofLex z).1 ∧ f 1 l = (ofLex z).2 from this _ hr
      intro z hz
      induction hz with
      | refl => exact ⟨_, isomorphism_refl _ _ _ _ _, rfl, rfl⟩
      | @tail b c _ hbc ih =>
        obtain ⟨f, hf, hfx, hfy⟩ := ih
        obtain ⟨p, hp, _, _, hc, hc'⟩ := (hflat (ofLex b).1 (ofLex b).2 (ofLex c).1 (ofLex c).2).1 hbc
        exact ⟨_, isomorphism_trans hf (h1 p hp).2.1, by simp only [hc, hfx], by simp only [hc', hfy]⟩
    · rintro ⟨f, hf, rfl, rfl⟩
      obtain ⟨qs, hq, hfq⟩ := h2 f hf
      obtain ⟨hs0, hs1⟩ := hNL n l hnl
      rw [hfq 0 (by omega) n hs0, hfq 1 le_rfl l hs1]
      clear hfq
      suffices NL [qs.foldr (fun m y => Spec.permOf m 0 y) n, qs.foldr (fun m y => Spec.permOf m 1 y) l] ∧
          Reach E (toLex (n, l))
            (toLex (qs.foldr (fun m y => Spec.permOf m 0 y) n, qs.foldr (fun m y => Spec.permOf m 1 y) l)) from this.2
      induction qs with
      | nil => exact ⟨hnl, .refl⟩
      | cons q qs ih =>
        obtain ⟨ih1, ih2⟩ := ih fun m hm => hq m (by simp [hm])
        have hqp := hq q (by simp)
        refine ⟨hmaps _ (h1 q hqp).2.1 _ _ ih1, ih2.tail ((hflat _ _ _ _).2 ⟨q, hqp, ?_⟩)⟩
        exact ⟨(hNL _ _ ih1).1, (hNL _ _ ih1).2, rfl, rfl⟩
  obtain ⟨dd, out, e1, e2, e3, e4, e5⟩ := orbits_core hn
    (gens := ps.map fun p => pairItems (p.headD [], (p[1]?).getD [])) (by
    rintro ⟨u, v⟩ hp hu
    obtain ⟨p, hpp, _, _, hv, hv'⟩ := (hflat (ofLex u).1 (ofLex u).2 (ofLex v).1 (ofLex v).2).1 hp
    refine ⟨_, hbij _ (h1 p hpp).2.1, ?_, fun x hx => .inr ?_⟩
    · simp only [← hv, ← hv']; rfl
    · have hx' := hNL _ _ ((hm (ofLex x).1 (ofLex x).2).1 hx)
      exact (hflat (ofLex x).1 (ofLex x).2 _ _).2 ⟨p, hpp, hx'.1, hx'.2, rfl, rfl⟩)
  refine ⟨out, ?_, e3, ?_, ?_⟩
  · unfold networkOrbitsNl automorphismOrbitsNl
    simp only [hps, List.map_map, Function.comp_def, e1, e2]
  · intro n l hnl
    obtain ⟨o, ho, hr, hl⟩ := e4 _ ((hm n l).2 hnl)
    refine ⟨o, ho, ?_, fun f hf => hl _ ((hreach n l _ _ hnl).2 ⟨f, hf, rfl, rfl⟩)⟩
    obtain ⟨f, hf, h3, h4⟩ := (hreach n l (ofLex o).1 (ofLex o).2 hnl).1 hr
    exact ⟨f, hf, by rw [h3, h4]; rfl⟩
  · intro n l n' l' h h'
    rw [e5 _ ((hm n l).2 h) _ ((hm n' l').2 h'), hreach n l n' l' h]

end Pymnet

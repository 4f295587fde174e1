import Verif.Proofs.Comb
import Verif.Props.Transforms3

/-! The checks of induced subgraphs answer what they say. -/

set_option linter.unusedSectionVars false
set_option linter.unusedSimpArgs false

namespace Pymnet

open Py

variable {α W β : Type} [DecidableEq α] [DecidableEq W] [DecidableEq β]
variable {m : MNet α W} {z : W} {al : Bool} {S : Nat → α → Prop} {NL : List α → Prop} {R : List α → List α → W}

theorem selected_inside (N L : List α) {nl : List α} (h : nl.length = 2) :
    Spec.Selected [some N, some L] nl ↔ Spec.Inside N L nl := by
  obtain ⟨n, l, rfl⟩ := List.length_eq_two.1 h
  unfold Spec.Selected Spec.Inside
  constructor
  · intro hs
    exact ⟨n, hs 0 n N rfl rfl, l, hs 1 l L rfl rfl, rfl⟩
  · rintro ⟨n', hn, l', hl, he⟩
    simp only [List.cons.injEq, and_true] at he
    obtain ⟨rfl, rfl⟩ := he
    intro i x s hx hs
    match i with
    | 0 => simp at hx hs; subst hx; subst hs; exact hn
    | 1 => simp at hx hs; subst hx; subst hs; exact hl
    | i + 2 => simp at hs

theorem reflTransGen_map {γ δ : Type} {r : γ → γ → Prop} {s : δ → δ → Prop} (f : γ → δ)
    (h : ∀ a b, r a b → s (f a) (f b)) {a b : γ} (hab : Relation.ReflTransGen r a b) : Relation.ReflTransGen s (f a) (f b) := by
  induction hab with
  | refl => exact Relation.ReflTransGen.refl
  | tail _ hbc ih => exact ih.tail (h _ _ hbc)

/-- Connectivity is preserved by renaming the vertices one to one. -/
theorem connected_image {γ δ : Type} {V : γ → Prop} {E : γ → γ → Prop} {V' : δ → Prop} {E' : δ → δ → Prop} (f : γ → δ)
    (hf : Function.Injective f) (hV : ∀ y, V' y ↔ ∃ x, V x ∧ y = f x) (hE : ∀ x y, V x → V y → (E' (f x) (f y) ↔ E x y)) :
    Spec.Connected V' E' ↔ Spec.Connected V E := by
  unfold Spec.Connected
  constructor
  · rintro ⟨⟨y, hy⟩, hc⟩
    obtain ⟨x, hx, -⟩ := (hV y).1 hy
    refine ⟨⟨x, hx⟩, fun a b ha hb => ?_⟩
    have key : ∀ u v, Relation.ReflTransGen (fun a b => V' a ∧ V' b ∧ E' a b) u v → ∀ a, V a → u = f a → ∃ b, V b ∧ v = f b ∧
        Relation.ReflTransGen (fun a b => V a ∧ V b ∧ E a b) a b := by
      intro u v huv
      induction huv with
      | refl => intro a ha he; exact ⟨a, ha, he, Relation.ReflTransGen.refl⟩
      | tail _ hbc ih =>
        intro a ha he
        obtain ⟨b, hb, rfl, hab⟩ := ih a ha he
        obtain ⟨c, hc, rfl⟩ := (hV _).1 hbc.2.1
        exact ⟨c, hc, rfl, hab.tail ⟨hb, hc, (hE _ _ hb hc).1 hbc.2.2⟩⟩
    obtain ⟨b', hb', e, h⟩ := key _ _ (hc (f a) (f b) ((hV _).2 ⟨a, ha, rfl⟩) ((hV _).2 ⟨b, hb, rfl⟩)) a ha rfl
    rw [hf e]; exact h
  · rintro ⟨⟨x, hx⟩, hc⟩
    refine ⟨⟨f x, (hV _).2 ⟨x, hx, rfl⟩⟩, fun u v hu hv => ?_⟩
    obtain ⟨a, ha, rfl⟩ := (hV u).1 hu
    obtain ⟨b, hb, rfl⟩ := (hV v).1 hv
    exact reflTransGen_map f (fun a b h => ⟨(hV _).2 ⟨a, h.1, rfl⟩, (hV _).2 ⟨b, h.2.1, rfl⟩, (hE _ _ h.1 h.2.1).2 h.2.2⟩)
      (hc a b ha hb)

theorem connected_congr {γ : Type} {V V' : γ → Prop} {E E' : γ → γ → Prop} (hV : ∀ x, V' x ↔ V x)
    (hE : ∀ x y, V x → V y → (E' x y ↔ E x y)) : Spec.Connected V' E' ↔ Spec.Connected V E :=
  connected_image (fun x => x) (fun _ _ h => h) (fun y => (hV y).trans ⟨fun h => ⟨y, h, rfl⟩, fun ⟨_, h, e⟩ => e ▸ h⟩) hE

/-- The connectivity test of the induced subgraph. -/
theorem induced_spec (h : Spec.Looks m 1 z false al S NL R) {conn : MNet β W → Bool} (hc : Spec.TestsConnected conn)
    {name : List α → β} (hn : Function.Injective name) (N L : List α) :
    ∃ ind b, m.subnet [some N, some L] false = .ok ind ∧ inducedConnected conn name ind = .ok b ∧
      (b = true ↔ Spec.Connected (fun nl => NL nl ∧ Spec.Inside N L nl) fun u v => R u v ≠ z) ∧
      ind.nodeLayers.Nodup ∧ ∀ nl, nl ∈ ind.nodeLayers ↔ NL nl ∧ Spec.Inside N L nl := by
  obtain ⟨ind, e1, hl⟩ := C28_subnet_partial h (sel := [some N, some L]) rfl false
  obtain ⟨g, R', e2, hg, hr1, hr2⟩ := C34_underlying hl hn
  have hnl : ∀ nl, (NL nl ∧ Spec.Selected [some N, some L] nl) ↔ (NL nl ∧ Spec.Inside N L nl) := fun nl =>
    and_congr_right fun hx => selected_inside N L (h.nl_length hx)
  refine ⟨ind, conn g, e1, by simp [inducedConnected, e2], ?_, hl.nodeLayers.1, fun nl => (hl.nodeLayers.2 nl).trans (hnl nl)⟩
  rw [hc _ _ _ _ _ hg]
  refine connected_image (fun nl => [name nl]) (fun x y hxy => hn (by simpa using hxy)) (fun y => ?_) ?_
  · refine exists_congr fun x => and_congr_left fun _ => hnl x
  · intro x y hx hy
    have lx := h.nl_length hx.1
    have ly := h.nl_length hy.1
    rw [hr1 x y lx ly, if_pos ⟨rfl, (selected_inside N L lx).2 hx.2, (selected_inside N L ly).2 hy.2⟩]

theorem noEmpty_iff {nls : List (List α)} {N L : List α} (hm : ∀ nl, nl ∈ nls ↔ NL nl ∧ Spec.Inside N L nl) :
    noEmpty nls N L = true ↔ (∀ l ∈ L, ∃ n ∈ N, NL [n, l]) ∧ ∀ n ∈ N, ∃ l ∈ L, NL [n, l] := by
  unfold noEmpty
  simp only [Bool.and_eq_true, List.all_eq_true, List.any_eq_true, decide_eq_true_eq, hm]
  refine and_congr (forall₂_congr fun l hl => exists_congr fun n => and_congr_right fun hn => ?_)
    (forall₂_congr fun n hn => exists_congr fun l => and_congr_right fun hl => ?_)
  · exact and_iff_left ⟨n, hn, l, hl, rfl⟩
  · exact and_iff_left ⟨n, hn, l, hl, rfl⟩

theorem relaxedCheck_spec (h : Spec.Looks m 1 z false al S NL R) {conn : MNet β W → Bool} (hc : Spec.TestsConnected conn)
    {name : List α → β} (hn : Function.Injective name) (N L : List α) :
    ∃ b, relaxedCheck conn name m N L = .ok b ∧ (b = true ↔ Spec.Proper NL (fun u v => R u v ≠ z) N L) := by
  obtain ⟨ind, c, e1, e2, h1, h2, h3⟩ := induced_spec h hc hn N L
  simp only [relaxedCheck, e1, e2]
  unfold Spec.Proper
  rw [← h1, ← noEmpty_iff h3]
  cases c
  · exact ⟨false, rfl, by simp⟩
  · exact ⟨_, rfl, by simp⟩

/-! ### default_check_reqs -/

/-- The nodes of a layer, in the order in which the node-layers are listed. -/
def onLayer (nls : List (List α)) (l : α) : List α :=
  nls.filterMap fun nl => if nl[1]? = some l then nl[0]? else none

theorem get_byLayer {nls : List (List α)} (h2 : ∀ nl ∈ nls, nl.length = 2) (d : Dict α (List α)) (l : α) :
    Dict.get (byLayer nls d) l = if onLayer nls l = [] then Dict.get d l else some ((Dict.get d l).getD [] ++ onLayer nls l) := by
  induction nls generalizing d with
  | nil => simp [byLayer, onLayer]
  | cons nl t ih =>
    obtain ⟨n, l', rfl⟩ := List.length_eq_two.1 (h2 nl (by simp))
    simp only [byLayer]
    rw [ih (fun x hx => h2 x (by simp [hx])), Dict.get_set]
    by_cases e : l' = l
    · subst e
      have ho : onLayer ([n, l'] :: t) l' = n :: onLayer t l' := by simp [onLayer]
      rw [ho]
      by_cases h0 : onLayer t l' = []
      · simp [h0]
      · simp [h0]
    · have ho : onLayer ([n, l'] :: t) l = onLayer t l := by simp [onLayer, e]
      rw [ho]
      simp [e]

theorem nodup_byLayer (nls : List (List α)) {d : Dict α (List α)} (h : (Dict.keys d).Nodup) :
    (Dict.keys (byLayer nls d)).Nodup := by
  induction nls generalizing d with
  | nil => exact h
  | cons nl t ih =>
    unfold byLayer
    split
    · exact ih (Dict.nodup_keys_set h _ _)
    · exact ih h

theorem mem_onLayer {nls : List (List α)} (h2 : ∀ nl ∈ nls, nl.length = 2) {l n : α} : n ∈ onLayer nls l ↔ [n, l] ∈ nls := by
  simp only [onLayer, List.mem_filterMap]
  constructor
  · rintro ⟨nl, hnl, he⟩
    obtain ⟨n', l', rfl⟩ := List.length_eq_two.1 (h2 nl hnl)
    by_cases e : l' = l
    · subst e; simp at he; subst he; exact hnl
    · simp [e] at he
  · intro hm
    exact ⟨_, hm, by simp⟩

theorem nodup_onLayer {nls : List (List α)} (h2 : ∀ nl ∈ nls, nl.length = 2) (hn : nls.Nodup) (l : α) : (onLayer nls l).Nodup := by
  induction nls with
  | nil => simp [onLayer]
  | cons nl t ih =>
    rw [List.nodup_cons] at hn
    have iht := ih (fun x hx => h2 x (by simp [hx])) hn.2
    obtain ⟨n, l', rfl⟩ := List.length_eq_two.1 (h2 nl (by simp))
    by_cases e : l' = l
    · subst e
      have ho : onLayer ([n, l'] :: t) l' = n :: onLayer t l' := by simp [onLayer]
      rw [ho, List.nodup_cons]
      exact ⟨fun hm => hn.1 ((mem_onLayer fun x hx => h2 x (by simp [hx])).1 hm), iht⟩
    · have ho : onLayer ([n, l'] :: t) l = onLayer t l := by simp [onLayer, e]
      rw [ho]; exact iht

theorem tableStep_spec (isects : List (Option Int)) (cs : List (List Nat)) (hn : cs.Nodup) (d : Dict (List Nat) (Option Int)) (i : Nat)
    (hl : i + cs.length ≤ isects.length) :
    ∃ d', forE (tableStep isects) cs (d, i) = .ok (d', i + cs.length) ∧
      (∀ (k : Nat) c, cs[k]? = some c → Dict.get d' c = isects[i + k]?) ∧ ∀ c, c ∉ cs → Dict.get d' c = Dict.get d c := by
  induction cs generalizing d i with
  | nil => exact ⟨d, rfl, by simp, by simp⟩
  | cons c cs ih =>
    rw [List.nodup_cons] at hn
    simp only [List.length_cons] at hl
    obtain ⟨r, hr⟩ : ∃ r, isects[i]? = some r := ⟨_, List.getElem?_eq_getElem (by omega)⟩
    have hst : tableStep isects (d, i) c = .ok (Dict.set d c r, i + 1) := by simp only [tableStep, hr]
    obtain ⟨d', e, h1, h2⟩ := ih hn.2 (Dict.set d c r) (i + 1) (by omega)
    refine ⟨d', ?_, ?_, ?_⟩
    · simp only [forE, hst, e, List.length_cons]; congr 2; omega
    · intro k x hx
      cases k with
      | zero =>
        simp only [List.getElem?_cons_zero, Option.some.injEq] at hx; subst hx
        rw [h2 _ hn.1, Dict.get_set, if_pos rfl, Nat.add_zero, hr]
      | succ k =>
        rw [List.getElem?_cons_succ] at hx
        rw [h1 k x hx]; congr 1; omega
    · intro x hx
      simp only [List.mem_cons, not_or] at hx
      rw [h2 x hx.2, Dict.get_set_ne _ _ (fun e => hx.1 e.symm)]

theorem forE_flatMap {σ γ δ : Type} (f : σ → δ → Except Err σ) (L : γ → List δ) (l : List γ) (s : σ) :
    forE (fun s x => forE f (L x) s) l s = forE f (l.flatMap L) s := by
  induction l generalizing s with
  | nil => rfl
  | cons b l ih =>
    simp only [forE, List.flatMap_cons, forE_append]
    cases forE f (L b) s with
    | error e => rfl
    | ok s => exact ih s

theorem nodup_layerSets (n : Nat) : (Spec.layerSets n).Nodup := by
  unfold Spec.layerSets
  rw [List.nodup_flatMap]
  refine ⟨fun k _ => nodup_combinations List.nodup_range k, ?_⟩
  refine List.Pairwise.imp (R := fun a b => a ≠ b) ?_ (List.nodup_range' (step := 1) (by omega))
  intro a b hab c hc hc'
  exact hab (((mem_combinations.1 hc).2).symm.trans (mem_combinations.1 hc').2)

theorem length_layerSets (n : Nat) : (Spec.layerSets n).length = 2 ^ n - n - 1 := by
  have := length_intersectionSizes (List.replicate n (∅ : Finset Nat))
  rw [List.length_replicate] at this
  rw [← this]
  unfold Spec.layerSets Spec.intersectionSizes
  simp [List.length_flatMap, length_combinations]

theorem mem_layerSets {n : Nat} {c : List Nat} : c ∈ Spec.layerSets n ↔ c.Sublist (List.range n) ∧ 2 ≤ c.length := by
  unfold Spec.layerSets
  simp only [List.mem_flatMap, mem_combinations, List.mem_range'_1]
  constructor
  · rintro ⟨k, hk, h1, h2⟩; exact ⟨h1, by omega⟩
  · rintro ⟨h1, h2⟩
    have := h1.length_le
    rw [List.length_range] at this
    exact ⟨c.length, by omega, h1, rfl⟩

theorem isectTable_spec {n : Nat} {isects : List (Option Int)} (hl : isects.length = 2 ^ n - n - 1) :
    ∃ d, isectTable n isects = .ok d ∧ ∀ (k : Nat) c, (Spec.layerSets n)[k]? = some c → Dict.get d c = isects[k]? := by
  obtain ⟨d, e, h1, -⟩ := tableStep_spec isects (Spec.layerSets n) (nodup_layerSets n) [] 0 (by rw [length_layerSets, hl]; omega)
  refine ⟨d, ?_, fun k c hc => by rw [h1 k c hc, Nat.zero_add]⟩
  unfold isectTable
  have := forE_flatMap (tableStep isects) (fun jj => combinations (List.range n) jj) (List.range' 2 (n - 1)) (([], 0) : Dict (List Nat) (Option Int) × Nat)
  unfold Spec.layerSets at e
  rw [← this] at e
  rw [e]

theorem meetAll_spec {d : Dict α (List α)} {f : α → List α} {ls : List α} (h : ∀ l ∈ ls, Dict.get d l = some (f l)) (acc : List α) :
    meetAll d acc ls = .ok (acc.filter fun x => decide (∀ l ∈ ls, x ∈ f l)) := by
  induction ls generalizing acc with
  | nil => simp [meetAll]
  | cons l t ih =>
    simp only [meetAll, h l (by simp)]
    rw [ih fun x hx => h x (by simp [hx])]
    rw [List.filter_filter]
    congr 1
    refine List.filter_congr fun x _ => ?_
    simp [Bool.and_comm]

theorem idxOf_map_self {p : List α} (h : p.Nodup) : p.map p.idxOf = List.range p.length := by
  apply List.ext_getElem
  · simp
  · intro i h1 h2
    simp only [List.getElem_map, List.getElem_range]
    simp only [List.length_map] at h1
    exact h.idxOf_getElem i h1

theorem pySorted_eq_of_sublist_range {c : List Nat} {n : Nat} (h : c.Sublist (List.range n)) : pySorted c = c := by
  have hs : c.Pairwise (· ≤ ·) := (List.pairwise_le_range (n := n)).sublist h
  exact hs.insertionSort_eq

theorem nodup_toSet {l : List α} : (toSet l).Nodup := by
  unfold toSet
  suffices ∀ (l acc : List α), acc.Nodup → (l.foldl sadd acc).Nodup from this l [] List.nodup_nil
  intro l
  induction l with
  | nil => intro acc h; exact h
  | cons a t ih => intro acc h; exact ih _ (nodup_sadd h a)

section fits

variable {d : Dict α (List α)} {f : α → List α} {N perm : List α} {sizes : List Int} {isects : List (Option Int)}
  {table : Dict (List Nat) (Option Int)} {it : IType}

/-- What one combination of layers has to satisfy. -/
def CombOk (NL : List α → Prop) (sizes : List Int) (table : Dict (List Nat) (Option Int)) (it : IType) (N perm comb : List α) : Prop :=
  (∀ c, comb = [c] → sizes[perm.idxOf c]? = some ({n | n ∈ N ∧ NL [n, c]}.ncard : Int)) ∧
    (2 ≤ comb.length → ∀ r, Dict.get table (comb.map perm.idxOf) = some (some r) →
      Spec.Meets it {n | n ∈ N ∧ ∀ l ∈ comb, NL [n, l]}.ncard r)

open Classical in
theorem combFits_spec (hd : ∀ l ∈ perm, Dict.get d l = some (f l)) (hf : ∀ l ∈ perm, (f l).Nodup)
    (hm : ∀ l ∈ perm, ∀ n, n ∈ f l ↔ n ∈ N ∧ NL [n, l]) (hp : perm.Nodup) (hs : sizes.length = perm.length)
    (ht : ∀ c ∈ Spec.layerSets perm.length, (Dict.get table c).isSome = true) (hit : it ≠ .other)
    {comb : List α} (hc : comb.Sublist perm) (h1 : comb ≠ []) :
    combFits d sizes table it perm comb = .ok (decide (CombOk NL sizes table it N perm comb)) := by
  match comb, h1 with
  | [c], _ =>
    have hcp : c ∈ perm := hc.subset (by simp)
    have hi : perm.idxOf c < sizes.length := by rw [hs]; exact List.idxOf_lt_length_iff.2 hcp
    have hn : {n | n ∈ N ∧ NL [n, c]}.ncard = (f c).length := MNet.ncard_of_list (hf c hcp) (hm c hcp)
    simp only [combFits, hd c hcp, List.getElem?_eq_getElem hi]
    congr 1
    rw [decide_eq_decide]
    unfold CombOk
    constructor
    · intro h
      refine ⟨?_, by simp⟩
      rintro c' hc'
      simp only [List.cons.injEq, and_true] at hc'; subst hc'
      rw [List.getElem?_eq_getElem hi, hn, h]
    · rintro ⟨h, -⟩
      have := h c rfl
      rw [List.getElem?_eq_getElem hi, hn] at this
      exact (Option.some.inj this).symm
  | c :: c' :: t, _ =>
    have hcp : c ∈ perm := hc.subset (by simp)
    have hidx : ((c :: c' :: t).map perm.idxOf).Sublist (List.range perm.length) := by
      rw [← idxOf_map_self hp]; exact hc.map _
    have hsome := ht _ (mem_layerSets.2 ⟨hidx, by simp⟩)
    obtain ⟨r, hr⟩ := Option.isSome_iff_exists.1 hsome
    simp only [combFits, hd c hcp]
    rw [meetAll_spec (f := f) (fun l hl => hd l (hc.subset hl))]
    have hlen : ((toSet (f c)).filter fun x => decide (∀ l ∈ c :: c' :: t, x ∈ f l)).length =
        {n | n ∈ N ∧ ∀ l ∈ c :: c' :: t, NL [n, l]}.ncard := by
      rw [MNet.ncard_of_list (nodup_toSet.filter _)]
      intro n
      rw [List.mem_filter, mem_toSet, decide_eq_true_eq]
      constructor
      · rintro ⟨h1, h2⟩
        exact ⟨((hm c hcp n).1 h1).1, fun l hl => ((hm l (hc.subset hl) n).1 (h2 l hl)).2⟩
      · rintro ⟨h1, h2⟩
        exact ⟨(hm c hcp n).2 ⟨h1, h2 c (by simp)⟩, fun l hl => (hm l (hc.subset hl) n).2 ⟨h1, h2 l hl⟩⟩
    simp only
    rw [if_neg hit, pySorted_eq_of_sublist_range hidx, hr]
    cases r with
    | none =>
      simp only
      congr 1
      rw [eq_comm, decide_eq_true_eq]
      refine ⟨by simp, fun _ r hr' => ?_⟩
      rw [hr] at hr'; simp at hr'
    | some k =>
      simp only
      rw [hlen]
      have hiff : CombOk NL sizes table it N perm (c :: c' :: t) ↔
          Spec.Meets it {n | n ∈ N ∧ ∀ l ∈ c :: c' :: t, NL [n, l]}.ncard k := by
        constructor
        · intro h; exact h.2 (by simp) k hr
        · intro h
          refine ⟨by simp, fun _ r hr' => ?_⟩
          rw [hr] at hr'
          simp only [Option.some.injEq] at hr'
          exact hr' ▸ h
      cases it with
      | strict =>
        rw [if_pos rfl]; congr 1
        rw [decide_eq_decide, hiff]
        rfl
      | lessOrEqual =>
        rw [if_neg (by decide)]; congr 1
        rw [decide_eq_decide, hiff]
        rfl
      | other => exact absurd rfl hit

theorem permFits_spec (hd : ∀ l ∈ perm, Dict.get d l = some (f l)) (hf : ∀ l ∈ perm, (f l).Nodup)
    (hm : ∀ l ∈ perm, ∀ n, n ∈ f l ↔ n ∈ N ∧ NL [n, l]) (hp : perm.Nodup) (hs : sizes.length = perm.length)
    (ht : ∀ (k : Nat) c, (Spec.layerSets perm.length)[k]? = some c → Dict.get table c = isects[k]?)
    (hi : isects.length = 2 ^ perm.length - perm.length - 1) (hit : it ≠ .other) :
    ∃ b, permFits d sizes table it perm = .ok b ∧ (b = true ↔ Spec.FitsIn NL sizes isects it N perm) := by
  classical
  have ht' : ∀ c ∈ Spec.layerSets perm.length, (Dict.get table c).isSome = true := by
    intro c hc
    obtain ⟨k, hk⟩ := List.mem_iff_getElem?.1 hc
    rw [ht k c hk]
    have hlt := (List.getElem?_eq_some_iff.1 hk).1
    rw [length_layerSets, ← hi] at hlt
    rw [List.getElem?_eq_getElem hlt]; rfl
  have hin : ∀ ii ∈ List.range' 1 perm.length, allE (combFits d sizes table it perm) (combinations perm ii) =
      .ok (decide (∀ comb ∈ combinations perm ii, CombOk NL sizes table it N perm comb)) := by
    intro ii hii
    refine allE_ok fun comb hcomb => ?_
    rw [mem_combinations] at hcomb
    refine combFits_spec hd hf hm hp hs ht' hit hcomb.1 ?_
    rintro rfl
    rw [List.mem_range'_1] at hii
    simp at hcomb; omega
  refine ⟨_, allE_ok hin, ?_⟩
  rw [decide_eq_true_eq]
  have hget : ∀ l ∈ perm, perm[perm.idxOf l]? = some l := fun l hl => by
    rw [List.getElem?_eq_getElem (List.idxOf_lt_length_iff.2 hl), List.getElem_idxOf]
  have hset : ∀ comb : List α, comb.Sublist perm → ∀ n, (∀ i ∈ comb.map perm.idxOf, ∀ l, perm[i]? = some l → NL [n, l]) ↔
      ∀ l ∈ comb, NL [n, l] := by
    intro comb hc n
    constructor
    · intro h l hl
      exact h _ (List.mem_map_of_mem hl) l (hget l (hc.subset hl))
    · intro h i hi l hl
      obtain ⟨l', hl', rfl⟩ := List.mem_map.1 hi
      rw [hget l' (hc.subset hl')] at hl
      exact Option.some.inj hl ▸ h l' hl'
  constructor
  · intro h
    constructor
    · intro i l hl
      have hlp : l ∈ perm := List.mem_of_getElem? hl
      have hpos : 0 < perm.length := List.length_pos_of_mem hlp
      have := (h 1 (by rw [List.mem_range'_1]; omega) [l] (mem_combinations.2 ⟨by simpa using hlp, rfl⟩)).1 l rfl
      have hidx : perm.idxOf l = i := by
        obtain ⟨hlt, rfl⟩ := List.getElem?_eq_some_iff.1 hl
        exact hp.idxOf_getElem i hlt
      rw [hidx] at this; exact this
    · intro k c r hk hr
      have hc := mem_layerSets.1 (List.mem_of_getElem? hk)
      have hlen := hc.1.length_le
      rw [List.length_range] at hlen
      have hmem : c ∈ combinations (perm.map perm.idxOf) c.length := by
        rw [idxOf_map_self hp]; exact mem_combinations.2 ⟨hc.1, rfl⟩
      rw [combinations_map] at hmem
      obtain ⟨comb, hcomb, rfl⟩ := List.mem_map.1 hmem
      rw [List.length_map] at hcomb hlen hc
      have := (h comb.length (by rw [List.mem_range'_1]; omega) comb hcomb).2 hc.2 r (by rw [ht k _ hk, hr])
      simp only [hset comb (mem_combinations.1 hcomb).1]
      exact this
  · rintro ⟨h1, h2⟩ ii hii comb hcomb
    rw [mem_combinations] at hcomb
    constructor
    · rintro c rfl
      have hcp : c ∈ perm := hcomb.1.subset (by simp)
      exact h1 _ c (hget c hcp)
    · intro h2l r hr
      have hidx : (comb.map perm.idxOf).Sublist (List.range perm.length) := by
        rw [← idxOf_map_self hp]; exact hcomb.1.map _
      have hmem : comb.map perm.idxOf ∈ Spec.layerSets perm.length := mem_layerSets.2 ⟨hidx, by simpa using h2l⟩
      obtain ⟨k, hk⟩ := List.mem_iff_getElem?.1 hmem
      have := h2 k _ r hk (by rw [← ht k _ hk, hr])
      simp only [hset comb hcomb.1] at this
      exact this

end fits

theorem defaultCheck_spec (h : Spec.Looks m 1 z false al S NL R) {conn : MNet β W → Bool} (hc : Spec.TestsConnected conn)
    {name : List α → β} (hn : Function.Injective name) {sizes : List Int} {isects : List (Option Int)} {it : IType}
    (hit : it ≠ .other) {N L : List α} (hL : L.Nodup) (hs : sizes.length = L.length) (hs1 : ∀ i ∈ sizes, i ≥ 1)
    (hi : isects.length = 2 ^ L.length - L.length - 1) :
    ∃ b, defaultCheck conn name sizes isects (some (N.length : Int)) (some (L.length : Int)) it m N L = .ok b ∧
      (b = true ↔ Spec.Proper NL (fun u v => R u v ≠ z) N L ∧ Spec.Fits NL sizes isects it N L) := by
  classical
  obtain ⟨ind, c, e1, e2, h1, h2, h3⟩ := induced_spec h hc hn N L
  have hreq : checkLengths sizes isects (some (N.length : Int)) (some (L.length : Int)) it = .ok ((N.length : Int), (L.length : Int)) := by
    cases it with
    | strict => rfl
    | lessOrEqual => rfl
    | other => exact absurd rfl hit
  unfold defaultCheck
  simp only [hreq, e1, e2]
  rw [if_neg (by simp), if_neg (by simp), if_neg (by simpa using hs1)]
  unfold Spec.Proper
  rw [← h1, ← noEmpty_iff h3]
  cases c
  · exact ⟨false, rfl, by simp⟩
  rw [if_pos rfl]
  by_cases hne : noEmpty ind.nodeLayers N L = true
  swap
  · rw [if_neg hne]
    exact ⟨false, rfl, by simp [hne]⟩
  rw [if_pos hne]
  have hne' := (noEmpty_iff h3).1 hne
  have hlen2 : ∀ nl ∈ ind.nodeLayers, nl.length = 2 := fun nl hnl => h.nl_length ((h3 nl).1 hnl).1
  have hon : ∀ l ∈ L, ∀ n, n ∈ onLayer ind.nodeLayers l ↔ n ∈ N ∧ NL [n, l] := by
    intro l hl n
    rw [mem_onLayer hlen2, h3]
    constructor
    · rintro ⟨h4, n', hn', l', hl', he⟩
      simp only [List.cons.injEq, and_true] at he
      exact ⟨he.1 ▸ hn', h4⟩
    · rintro ⟨h4, h5⟩; exact ⟨h5, n, h4, l, hl, rfl⟩
  have hnil : ∀ l, onLayer ind.nodeLayers l = [] ↔ l ∉ L := by
    intro l
    rw [List.eq_nil_iff_forall_not_mem]
    constructor
    · intro h0 hl
      obtain ⟨n, hn, hnl⟩ := hne'.1 l hl
      exact h0 n ((hon l hl n).2 ⟨hn, hnl⟩)
    · intro hl n hm
      rw [mem_onLayer hlen2, h3] at hm
      obtain ⟨-, n', -, l', hl', he⟩ := hm
      simp only [List.cons.injEq, and_true] at he
      exact hl (he.2 ▸ hl')
  have hget : ∀ l, Dict.get (byLayer ind.nodeLayers []) l = if l ∈ L then some (onLayer ind.nodeLayers l) else none := by
    intro l
    rw [get_byLayer hlen2]
    by_cases hl : l ∈ L
    · rw [if_neg (by rw [hnil]; simpa using hl), if_pos hl]; rfl
    · rw [if_pos ((hnil l).2 hl), if_neg hl]; rfl
  have hkeys : (Dict.keys (byLayer ind.nodeLayers [])).Perm L := by
    rw [List.perm_ext_iff_of_nodup (nodup_byLayer _ (by simp [Dict.keys])) hL]
    intro l
    rw [Dict.mem_keys, hget]
    by_cases hl : l ∈ L <;> simp [hl]
  have hdl : (byLayer ind.nodeLayers []).length = L.length := by rw [← Dict.length_keys, hkeys.length_eq]
  rw [if_neg (by rw [hdl]; simp)]
  obtain ⟨table, et, ht⟩ := isectTable_spec hi
  simp only [et]
  have hperm : ∀ p ∈ permutations L, permFits (byLayer ind.nodeLayers []) sizes table it p =
      .ok (decide (Spec.FitsIn NL sizes isects it N p)) := by
    intro p hp
    rw [mem_permutations] at hp
    obtain ⟨b, eb, hb⟩ := permFits_spec (d := byLayer ind.nodeLayers []) (f := onLayer ind.nodeLayers) (N := N) (NL := NL)
      (table := table) (isects := isects) (it := it) (sizes := sizes) (perm := p)
      (fun l hl => by rw [hget, if_pos (hp.subset hl)]) (fun l _ => nodup_onLayer hlen2 h2 l)
      (fun l hl => hon l (hp.subset hl)) (hp.nodup_iff.2 hL) (by rw [hs, hp.length_eq])
      (by rw [hp.length_eq]; exact ht) (by rw [hp.length_eq]; exact hi) hit
    rw [eb]
    congr 1
    rw [Bool.eq_iff_iff, hb, decide_eq_true_eq]
  refine ⟨_, anyE_ok hperm, ?_⟩
  rw [decide_eq_true_eq]
  unfold Spec.Fits
  simp only [mem_permutations, hne, true_and, and_true]

end Pymnet

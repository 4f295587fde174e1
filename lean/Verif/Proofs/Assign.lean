import Verif.Model.Assign
import Verif.Spec.Assign
import Verif.Proofs.SubnetP

/-! Emptying a layer of a node-aligned multiplex network gives the network of another history. -/

set_option linter.unusedSectionVars false
set_option linter.unusedSimpArgs false

namespace Pymnet

open Py MPlex

variable {α W : Type} [DecidableEq α] [DecidableEq W] [Zero W]

/-- Replace the value of a key, if it is there. -/
def emptyAt {κ ν : Type} [DecidableEq κ] (L : κ) (v : ν) : Dict κ ν → Dict κ ν
  | [] => []
  | (k, c) :: t => if k = L then (k, v) :: t else (k, c) :: emptyAt L v t

section dict
variable {κ ν : Type} [DecidableEq κ] (L : κ) (v : ν)

theorem emptyAt_eq_set {A : Dict κ ν} (h : (Dict.get A L).isSome = true) : emptyAt L v A = Dict.set A L v := by
  induction A with
  | nil => simp at h
  | cons p t ih =>
    obtain ⟨k, c⟩ := p
    simp only [emptyAt, Dict.set]
    split
    · rfl
    · rename_i hk
      rw [Dict.get_cons, if_neg hk] at h
      rw [ih h]

theorem emptyAt_set_self (A : Dict κ ν) : emptyAt L v (Dict.set A L v) = Dict.set (emptyAt L v A) L v := by
  induction A with
  | nil => simp [emptyAt, Dict.set]
  | cons p t ih =>
    obtain ⟨k, c⟩ := p
    by_cases hk : k = L
    · simp [emptyAt, Dict.set, hk]
    · simp [emptyAt, Dict.set, hk, ih]

theorem emptyAt_set_ne (A : Dict κ ν) {K : κ} (hK : K ≠ L) (c : ν) : emptyAt L v (Dict.set A K c) = Dict.set (emptyAt L v A) K c := by
  induction A with
  | nil => simp [emptyAt, Dict.set, hK]
  | cons p t ih =>
    obtain ⟨k, c'⟩ := p
    by_cases hk : k = L
    · have : L ≠ K := fun e => hK e.symm
      simp [emptyAt, Dict.set, hk, this]
    · by_cases hk' : k = K
      · simp [emptyAt, Dict.set, hk, hk', hK]
      · simp [emptyAt, Dict.set, hk, hk', ih]

theorem emptyAt_set_mem {A : Dict κ ν} (h : (Dict.get A L).isSome = true) (c : ν) :
    emptyAt L v (Dict.set A L c) = emptyAt L v A := by
  induction A with
  | nil => simp at h
  | cons p t ih =>
    obtain ⟨k, c'⟩ := p
    by_cases hk : k = L
    · simp [emptyAt, Dict.set, hk]
    · rw [Dict.get_cons, if_neg hk] at h
      simp [emptyAt, Dict.set, hk, ih h]

theorem get_emptyAt_ne (A : Dict κ ν) {K : κ} (hK : K ≠ L) : Dict.get (emptyAt L v A) K = Dict.get A K := by
  induction A with
  | nil => rfl
  | cons p t ih =>
    obtain ⟨k, c⟩ := p
    by_cases hk : k = L
    · have : L ≠ K := fun e => hK e.symm
      simp [emptyAt, hk, Dict.get_cons, this]
    · simp [emptyAt, hk, Dict.get_cons, ih]

theorem get_emptyAt_self (A : Dict κ ν) : Dict.get (emptyAt L v A) L = (Dict.get A L).map fun _ => v := by
  induction A with
  | nil => rfl
  | cons p t ih =>
    obtain ⟨k, c⟩ := p
    by_cases hk : k = L
    · simp [emptyAt, hk, Dict.get_cons]
    · simp [emptyAt, hk, Dict.get_cons, ih]

end dict

namespace MPlex

/-- The network with layer `L` emptied, if it has that layer. -/
def emptied (L : LKey α) (p : MPlex α W) : MPlex α W := { p with A := emptyAt L (MNet.init 0 0 p.directed true) p.A }

variable {L : LKey α} {p : MPlex α W}

theorem emptied_eq (h : (Dict.get p.A L).isSome = true) : emptied L p = p.addEmpty L := by
  unfold emptied addEmpty; rw [emptyAt_eq_set _ _ h]

/-- a statement that treats the emptied network as the network -/
def Comm (L : LKey α) (f : MPlex α W → Outcome (MPlex α W)) (p : MPlex α W) : Prop := f (emptied L p) = (emptied L (f p).1, (f p).2)

theorem Comm.andThen {f g : MPlex α W → Outcome (MPlex α W)} (hf : Comm L f p) (hg : Comm L g (f p).1) :
    Comm L (fun p => (f p).andThen g) p := by
  unfold Comm at *
  simp only
  rw [hf]
  cases h : (f p).2 with
  | some e =>
    have e1 : f p = ((f p).1, some e) := by rw [← h]
    rw [e1]; rfl
  | none =>
    have e1 : f p = ((f p).1, none) := by rw [← h]
    rw [Outcome.andThen_ok, hg, e1]; rfl

theorem comm_sliceAdd (a : Nat) (x : α) : Comm L (fun p => p.sliceAdd a x) p := by
  unfold Comm sliceAdd emptied
  simp only
  split <;> rfl

theorem emptied_addEmpty (K : LKey α) : emptied L (p.addEmpty K) = (emptied L p).addEmpty K := by
  unfold emptied addEmpty
  simp only [MPlex.mk.injEq, true_and, and_true]
  by_cases hK : K = L
  · subst hK; exact emptyAt_set_self ..
  · exact emptyAt_set_ne _ _ _ hK _

theorem emptied_foldl (ks : List (List α)) : emptied L (ks.foldl (fun p s => p.addEmpty (.ofList s)) p) =
    ks.foldl (fun p s => p.addEmpty (.ofList s)) (emptied L p) := by
  induction ks generalizing p with
  | nil => rfl
  | cons k ks ih => rw [List.foldl_cons, List.foldl_cons, ih, emptied_addEmpty]

theorem comm_addElem (x : α) (a : Nat) : Comm L (fun p => p.addElem x a) p := by
  unfold Comm
  simp only [addElem]
  have : (emptied L p).slices = p.slices := rfl
  rw [this]
  cases p.slices[a]? with
  | none => rfl
  | some s =>
    simp only
    split
    · rfl
    · rw [← emptied_foldl]
      exact comm_sliceAdd ..

theorem comm_addNode (hf : p.fic = true) (n : α) (l : Option (LKey α)) : Comm L (fun p => p.addNode n l) p := by
  have key : ∀ p : MPlex α W, p.fic = true → p.addNode n l = p.sliceAdd 0 n := by
    intro p hf
    unfold addNode regNode sliceAdd
    split
    · simp only [Outcome.andThen_ok]
      cases l with
      | none => rfl
      | some l => simp [hf]
    · rfl
  unfold Comm
  simp only
  rw [key p hf, key (emptied L p) hf]
  exact comm_sliceAdd ..

theorem comm_addLayer (hf : p.fic = true) (x : α) (a : Nat) : Comm L (fun p => p.addLayer x a) p := by
  unfold Comm
  simp only [addLayer]
  split
  · have : (emptied L p).slices = p.slices := rfl
    rw [this]
    cases p.slices[0]? with
    | none => rfl
    | some s =>
      simp only
      split
      · rfl
      · exact comm_addNode hf x none
  · exact comm_addElem x a

theorem child_emptied_ne {K : LKey α} (hK : K ≠ L) : (emptied L p).child? K = p.child? K := by
  unfold child? emptied
  simp only
  rw [get_emptyAt_ne _ _ _ hK]

theorem emptied_putChild_ne {K : LKey α} (hK : K ≠ L) (c : MNet α W) : emptied L (p.putChild K c) = (emptied L p).putChild K c := by
  unfold emptied putChild
  simp only [MPlex.mk.injEq, true_and, and_true]
  exact emptyAt_set_ne _ _ _ hK _

theorem fic_putChild (K : LKey α) (c : MNet α W) : (p.putChild K c).fic = p.fic := rfl

theorem comm_childAddNode (hf : p.fic = true) {K : LKey α} (hK : K ≠ L) (n : α) : Comm L (fun p => p.childAddNode K n) p := by
  unfold Comm
  simp only [childAddNode]
  rw [child_emptied_ne hK]
  cases p.child? K with
  | none => rfl
  | some c =>
    simp only
    rw [← emptied_putChild_ne hK]
    have h1 : (emptied L (p.putChild K (c.addNode n none).1)).fic = true := hf
    have h2 : (p.putChild K (c.addNode n none).1).fic = true := hf
    rw [if_pos h1, if_pos h2]
    exact comm_sliceAdd ..

theorem comm_childSetLink {K : LKey α} (hK : K ≠ L) (l : List α) (w : W) : Comm L (fun p => p.childSetLink K l w) p := by
  unfold Comm
  simp only [childSetLink]
  rw [child_emptied_ne hK]
  cases p.child? K with
  | none => rfl
  | some c => simp only; rw [← emptied_putChild_ne hK]

theorem fic_sliceAdd (a : Nat) (x : α) : (p.sliceAdd a x).1.fic = p.fic := by
  unfold sliceAdd; split <;> rfl

theorem fic_childAddNode (hf : p.fic = true) (K : LKey α) (n : α) : (p.childAddNode K n).1.fic = true := by
  unfold childAddNode
  cases p.child? K with
  | none => exact hf
  | some c =>
    simp only
    have h2 : (p.putChild K (c.addNode n none).1).fic = true := hf
    rw [if_pos h2, fic_sliceAdd]; exact h2

theorem comm_childSetItem (hf : p.fic = true) {K : LKey α} (hK : K ≠ L) (i j : α) (w : W) :
    Comm L (fun p => p.childSetItem K i j w) p := by
  have h1 := comm_childAddNode (p := p) hf hK i
  have h2 := comm_childAddNode (p := (p.childAddNode K i).1) (fic_childAddNode hf K i) hK j
  have h3 : Comm L (fun p => (p.childAddNode K i).andThen fun p => p.childAddNode K j) p := h1.andThen h2
  exact h3.andThen (comm_childSetLink hK [i, j] w)

theorem fic_addLayer (hf : p.fic = true) (x : α) (a : Nat) : (p.addLayer x a).1.fic = true := by
  have key : ∀ p : MPlex α W, p.fic = true → (p.addNode x none).1.fic = true := by
    intro p hf
    unfold addNode regNode sliceAdd
    split
    · simpa using hf
    · simpa using hf
  unfold addLayer
  split
  · cases p.slices[0]? with
    | none => exact hf
    | some s =>
      simp only
      split
      · exact hf
      · exact key p hf
  · unfold addElem
    cases p.slices[a]? with
    | none => exact hf
    | some s =>
      simp only
      split
      · exact hf
      · rw [fic_sliceAdd]
        generalize product _ = ks
        induction ks generalizing p with
        | nil => exact hf
        | cons k ks ih => exact ih (p := p.addEmpty (.ofList k)) hf

theorem comm_addLinkLayers : ∀ (l : List α) (a : Nat) {p : MPlex α W}, p.fic = true → Comm L (fun p => p.addLinkLayers l a) p
  | [], _, _, _ => rfl
  | [_], _, _, _ => rfl
  | x :: y :: t, a, p, hf => by
    have h1 := comm_addLayer (L := L) hf x a
    have h2 := comm_addLayer (L := L) (fic_addLayer hf x a) y a
    have h3 : Comm L (fun p => (p.addLayer x a).andThen fun p => p.addLayer y a) p := h1.andThen h2
    have hf3 : ((p.addLayer x a).andThen fun p => p.addLayer y a).1.fic = true := by
      cases h : (p.addLayer x a).2 with
      | none => rw [Outcome.andThen_of_eq h]; exact fic_addLayer (fic_addLayer hf x a) y a
      | some e =>
        have e1 : p.addLayer x a = ((p.addLayer x a).1, some e) := by rw [← h]
        have := fic_addLayer hf x a
        rw [e1] at this ⊢; exact this
    exact h3.andThen (comm_addLinkLayers t (a + 1) hf3)

theorem comm_addLinkNodes (hf : p.fic = true) (l : List α) : Comm L (fun p => p.addLinkNodes l) p := by
  unfold Comm
  match l with
  | [] => rfl
  | [_] => rfl
  | i :: j :: rest =>
    simp only [addLinkNodes]
    have h1 : (emptied L p).fic = true := hf
    rw [if_pos h1, if_pos hf]
    exact (comm_addLayer hf i 0).andThen (comm_addLayer (fic_addLayer hf i 0) j 0)

theorem fic_addLinkNodes (hf : p.fic = true) (l : List α) : (p.addLinkNodes l).1.fic = true := by
  match l with
  | [] => exact hf
  | [_] => exact hf
  | i :: j :: rest =>
    simp only [addLinkNodes]
    rw [if_pos hf]
    cases h : (p.addLayer i 0).2 with
    | none => rw [Outcome.andThen_of_eq h]; exact fic_addLayer (fic_addLayer hf i 0) j 0
    | some e =>
      have e1 : p.addLayer i 0 = ((p.addLayer i 0).1, some e) := by rw [← h]
      have := fic_addLayer hf i 0
      rw [e1] at this ⊢; exact this

theorem fic_addLinkLayers : ∀ (l : List α) (a : Nat) {p : MPlex α W}, p.fic = true → (p.addLinkLayers l a).1.fic = true
  | [], _, _, hf => hf
  | [_], _, _, hf => hf
  | x :: y :: t, a, p, hf => by
    unfold addLinkLayers
    have k1 : ((p.addLayer x a).andThen fun p => p.addLayer y a).1.fic = true := by
      cases h : (p.addLayer x a).2 with
      | none => rw [Outcome.andThen_of_eq h]; exact fic_addLayer (fic_addLayer hf x a) y a
      | some e =>
        have e1 : p.addLayer x a = ((p.addLayer x a).1, some e) := by rw [← h]
        have := fic_addLayer hf x a
        rw [e1] at this ⊢; exact this
    set r := (p.addLayer x a).andThen fun p => p.addLayer y a with hr
    cases h : r.2 with
    | none => rw [Outcome.andThen_of_eq h]; exact fic_addLinkLayers t (a + 1) k1
    | some e =>
      have e1 : r = (r.1, some e) := by rw [← h]
      rw [e1]; exact k1

/-- the registration of the end nodes and layers of a link -/
def register (l : List α) (p : MPlex α W) : Outcome (MPlex α W) :=
  (p.addLinkNodes l).andThen fun p => p.addLinkLayers (l.drop 2) 1

theorem comm_register (hf : p.fic = true) (l : List α) : Comm L (register l) p :=
  (comm_addLinkNodes hf l).andThen (comm_addLinkLayers _ _ (fic_addLinkNodes hf l))

theorem fic_register (hf : p.fic = true) (l : List α) : (register l p).1.fic = true := by
  unfold register
  have h1 := fic_addLinkNodes hf l
  cases h : (p.addLinkNodes l).2 with
  | none => rw [Outcome.andThen_of_eq h]; exact fic_addLinkLayers _ _ h1
  | some e =>
    have e1 : p.addLinkNodes l = ((p.addLinkNodes l).1, some e) := by rw [← h]
    rw [e1] at h1 ⊢; exact h1

/-- adding a node to the emptied layer -/
theorem emptied_childAddNode (h : p.P0) (hf : p.fic = true) {c : MNet α W} (hc : p.child? L = some c) (n : α) :
    emptied L (p.childAddNode L n).1 = ((emptied L p).sliceAdd 0 n).1 := by
  have hs : (Dict.get p.A L).isSome = true := by
    unfold child? at hc
    cases hg : Dict.get p.A L with
    | none => rw [hg] at hc; cases hc
    | some _ => rfl
  have hc0 : c.slices = [p.slices.headD []] := by
    unfold child? at hc
    cases hg : Dict.get p.A L with
    | none => rw [hg] at hc; cases hc
    | some _ => rw [hg, hf] at hc; cases hc; rfl
  unfold childAddNode
  rw [hc]
  simp only
  have h2 : (p.putChild L (c.addNode n none).1).fic = true := hf
  rw [if_pos h2, child_addNode (h.kids _ _ hc), hc0]
  have hlen := h.slen
  unfold sliceAdd putChild emptied
  simp only [hf, if_true, List.length_set]
  rw [if_pos (by omega), if_pos (by omega)]
  simp only [MPlex.mk.injEq, true_and, and_true]
  refine ⟨?_, emptyAt_set_mem _ _ hs _⟩
  cases hsl : p.slices with
  | nil => rw [hsl] at hlen; simp at hlen
  | cons a t => simp [sadd_idem]

theorem emptied_childSetLink (h : p.P0) (hf : p.fic = true) {c : MNet α W} (hc : p.child? L = some c) (i j : α) (w : W) :
    emptied L (p.childSetLink L [i, j] w).1 = emptied L p := by
  have hs : (Dict.get p.A L).isSome = true := by
    unfold child? at hc
    cases hg : Dict.get p.A L with
    | none => rw [hg] at hc; cases hc
    | some _ => rfl
  have hc0 : c.slices = [p.slices.headD []] := by
    unfold child? at hc
    cases hg : Dict.get p.A L with
    | none => rw [hg] at hc; cases hc
    | some _ => rw [hg, hf] at hc; cases hc; rfl
  have hk := h.kids _ _ hc
  have hfr := (MNet.setLink_spec hk.inv.l (u := [i]) (v := [j]) rfl (by simp) w).2.1
  have hsl : (c.setLink [i, j] w).1.slices = c.slices := by
    have := congrArg MNet.slices hfr
    exact this
  unfold childSetLink
  rw [hc]
  simp only
  unfold putChild emptied
  simp only [hf, if_true, MPlex.mk.injEq, true_and, and_true]
  refine ⟨?_, emptyAt_set_mem _ _ hs _⟩
  rw [hsl, hc0]
  have hlen := h.slen
  cases hsl : p.slices with
  | nil => rw [hsl] at hlen; simp at hlen
  | cons a t => simp

/-- writing to the emptied layer -/
theorem emptied_childSetItem (h : p.P0) (hf : p.fic = true) {c : MNet α W} (hc : p.child? L = some c) (i j : α) (w : W) :
    emptied L (p.childSetItem L i j w).1 = (((emptied L p).sliceAdd 0 i).1.sliceAdd 0 j).1 := by
  obtain ⟨a1, a2, a3⟩ := childAddNode_spec h hc i
  obtain ⟨S, hS⟩ := a3.old L c hc
  obtain ⟨b1, b2, b3⟩ := childAddNode_spec a2 hS j
  obtain ⟨S', hS'⟩ := b3.old L _ hS
  have f1 := fic_childAddNode hf L i
  have f2 := fic_childAddNode f1 L j
  unfold childSetItem
  rw [Outcome.andThen_of_eq a1, Outcome.andThen_of_eq b1, emptied_childSetLink b2 f2 hS', emptied_childAddNode a2 f1 hS,
    emptied_childAddNode h hf hc]

theorem addLayer_zero_eq (h : p.P0) (x : α) : (p.addLayer x 0).1 = (p.sliceAdd 0 x).1 := by
  have hlen := h.slen
  unfold addLayer
  rw [if_pos rfl]
  cases hs : p.slices with
  | nil => rw [hs] at hlen; simp at hlen
  | cons a t =>
    simp only [List.getElem?_cons_zero]
    have hl : 0 < p.slices.length := by rw [hs]; simp
    split
    · rename_i hx
      unfold sliceAdd
      rw [if_pos hl, hs]
      simp only [List.modify_zero_cons, sadd_of_mem hx]
      rw [← hs]
    · unfold addNode regNode
      have : (p.sliceAdd 0 x).2 = none := by unfold sliceAdd; rw [if_pos hl]
      rw [Outcome.andThen_of_eq (f := fun p => (p, none)) (by rw [Outcome.andThen_of_eq (f := fun p => (p, none)) this]),
        Outcome.andThen_of_eq (f := fun p => (p, none)) this]

theorem addNode_none_eq (h : p.P0) (x : α) : (p.addNode x none).1 = (p.sliceAdd 0 x).1 := by
  have hlen := h.slen
  have hl : 0 < p.slices.length := by omega
  unfold addNode regNode
  have : (p.sliceAdd 0 x).2 = none := by unfold sliceAdd; rw [if_pos hl]
  rw [Outcome.andThen_of_eq (f := fun p => (p, none)) (by rw [Outcome.andThen_of_eq (f := fun p => (p, none)) this]),
        Outcome.andThen_of_eq (f := fun p => (p, none)) this]

theorem sliceAdd_noop (h : p.P0) {x : α} (hx : p.inSlice 0 x) : (p.sliceAdd 0 x).1 = p := by
  obtain ⟨s, hs, hx⟩ := hx
  have hl := (List.getElem?_eq_some_iff.1 hs).1
  unfold sliceAdd
  rw [if_pos hl]
  cases hsl : p.slices with
  | nil => rw [hsl] at hs; cases hs
  | cons a t =>
    rw [hsl] at hs; cases hs
    simp only [List.modify_zero_cons, sadd_of_mem hx]
    rw [← hsl]

/-- one call, seen by the emptied network -/
theorem emptied_step (h : p.PInv) (hE : (emptied L p).P0) (hf : p.fic = true) (op : POp α W) :
    ∃ ops', emptied L (p.step op).1 = (emptied L p).run ops' ∧
      ∀ K i w, POp.intraSet K i i w ∈ ops' → POp.intraSet K i i w = op := by
  have same : ∀ {f : MPlex α W → Outcome (MPlex α W)}, p.step op = f p → (emptied L p).step op = f (emptied L p) → Comm L f p →
      ∃ ops', emptied L (p.step op).1 = (emptied L p).run ops' ∧
      ∀ K i w, POp.intraSet K i i w ∈ ops' → POp.intraSet K i i w = op := by
    intro f hfe hfe' hc
    refine ⟨[op], ?_, by simp⟩
    simp only [run, List.foldl_cons, List.foldl_nil]
    rw [hfe, hfe', hc]
  cases op with
  | addNode n l => exact same (f := fun p => p.addNode n l) rfl rfl (comm_addNode hf n l)
  | addLayer x a => exact same (f := fun p => p.addLayer x a) rfl rfl (comm_addLayer hf x a)
  | intraAddNode K n =>
    by_cases hK : K = L
    · subst hK
      cases hc : p.child? K with
      | none => exact ⟨[], by simp [step, childAddNode, hc, run], by simp⟩
      | some c =>
        refine ⟨[.addNode n none], ?_, by simp⟩
        simp only [run, List.foldl_cons, List.foldl_nil, step]
        rw [emptied_childAddNode h.core hf hc, addNode_none_eq hE]
    · exact same (f := fun p => p.childAddNode K n) rfl rfl (comm_childAddNode hf hK n)
  | intraSet K i j w =>
    by_cases hK : K = L
    · subst hK
      cases hc : p.child? K with
      | none => exact ⟨[], by simp only [step]; rw [childSetItem_none hc]; rfl, by simp⟩
      | some c =>
        refine ⟨[.addNode i none, .addNode j none], ?_, by simp⟩
        simp only [run, List.foldl_cons, List.foldl_nil, step]
        have hE1 : ((emptied K p).sliceAdd 0 i).1.P0 := (sliceAdd_zero hE i).2.1
        rw [emptied_childSetItem h.core hf hc, addNode_none_eq hE, addNode_none_eq hE1]
    · exact same (f := fun p => p.childSetItem K i j w) rfl rfl (comm_childSetItem hf hK i j w)
  | setItem item w =>
    by_cases hl : item.length = 2 * (p.aspects + 1) ∨ item.length = p.aspects + 2
    swap
    · exact ⟨[], by simp only [step]; rw [setItem_arity _ hl]; rfl, by simp⟩
    obtain ⟨i, s, j, t, ha⟩ := exists_addr _ hl
    have hlen := addresses_length ha
    have hs : s.length = p.aspects := by simpa using ha.1
    have ht : t.length = p.aspects := by simpa using ha.2.1
    have hst : s.length = t.length := hs.trans ht.symm
    have hlink : (if item.length = 2 * (p.aspects + 1) then item else shortLinkToLink item) =
        interleave (i :: s) (j :: t) := (addresses_iff.1 ha).2.2.2
    have hset : ∀ q : MPlex α W, q.aspects = p.aspects → q.setItem item w =
        (register (interleave (i :: s) (j :: t)) q).andThen fun q => q.setLink (interleave (i :: s) (j :: t)) w := by
      intro q hq
      unfold setItem register
      simp only [hq, hlen, if_true, hlink]
    obtain ⟨r1, r2, r3⟩ := register_spec h i j s t hs ht
    have hr2 : (register (interleave (i :: s) (j :: t)) p).2 = none := r2
    change (register (interleave (i :: s) (j :: t)) p).1.PInv at r1
    change Eff p (register (interleave (i :: s) (j :: t)) p).1 _ _ _ at r3
    by_cases hok : (i ≠ j ∧ s = t) ∧ .ofList s = L
    · obtain ⟨⟨hij, rfl⟩, rfl⟩ := hok
      have hint := (interAspects_zero (i := i) (j := j) hst).2 ⟨hij, rfl⟩
      have hsl : ∀ r : MPlex α W, r.setLink (interleave (i :: s) (j :: s)) w = r.childSetItem (.ofList s) i j w := by
        intro r
        change interAspects (i :: j :: interleave s s) 0 = [0] at hint
        change r.setLink (i :: j :: interleave s s) w = _
        unfold setLink
        simp only
        rw [if_pos hint, evens_interleave rfl]
      set r := (register (interleave (i :: s) (j :: s)) p).1 with hr
      have q1 : r.aspects = p.aspects := r3.par.1
      have hcs : (r.child? (.ofList s)).isSome = true := by
        rw [r1.core.akeys]
        exact ⟨s, rfl, hs.trans q1.symm, fun k x hx => (r3.sl _ _).2 (Or.inr (Or.inl (by simpa using hx)))⟩
      obtain ⟨c, hc⟩ := Option.isSome_iff_exists.1 hcs
      have hfr : r.fic = true := fic_register hf _
      have i0 : r.inSlice 0 i := (r3.sl _ _).2 (Or.inr (Or.inl rfl))
      have j0 : r.inSlice 0 j := (r3.sl _ _).2 (Or.inr (Or.inr rfl))
      have hrE : register (interleave (i :: s) (j :: s)) (emptied (.ofList s) p) = (emptied (.ofList s) r, none) := by
        have := comm_register (L := .ofList s) hf (interleave (i :: s) (j :: s))
        unfold Comm at this
        rw [this, hr2]
      have e1 : emptied (.ofList s) (p.step (.setItem item w)).1 = emptied (.ofList s) r := by
        simp only [step]
        rw [hset p rfl, Outcome.andThen_of_eq hr2, hsl, ← hr, emptied_childSetItem r1.core hfr hc]
        have k1 := comm_sliceAdd (L := .ofList s) (p := r) 0 i
        have k2 := comm_sliceAdd (L := .ofList s) (p := (r.sliceAdd 0 i).1) 0 j
        unfold Comm at k1 k2
        simp only at k1 k2
        rw [k1]
        simp only
        rw [k2]
        simp only
        rw [sliceAdd_noop r1.core i0, sliceAdd_noop r1.core j0]
      refine ⟨[.addNode i none, .setItem (interleave (j :: s) (j :: s)) w], ?_, by simp⟩
      rw [e1]
      simp only [run, List.foldl_cons, List.foldl_nil, step]
      rw [addNode_none_eq hE]
      set E := emptied (.ofList s) p with hEE
      have hasp : (E.sliceAdd 0 i).1.aspects = p.aspects := by unfold sliceAdd; split <;> rfl
      have hE1 : (E.sliceAdd 0 i).1.P0 := (sliceAdd_zero hE i).2.1
      have hfE : E.fic = true := hf
      have hset2 : (E.sliceAdd 0 i).1.setItem (interleave (j :: s) (j :: s)) w =
          (register (interleave (j :: s) (j :: s)) (E.sliceAdd 0 i).1).andThen fun q => q.setLink (interleave (j :: s) (j :: s)) w := by
        have hl2 : (interleave (j :: s) (j :: s)).length = 2 * (p.aspects + 1) := by
          rw [length_interleave rfl]; simp [hs]
        unfold setItem register
        simp only [hasp, hl2, true_or, if_true]
      have hno : ∀ q : MPlex α W, q.setLink (interleave (j :: s) (j :: s)) w = (q, some .keyError) := by
        intro q
        have : interAspects (interleave (j :: s) (j :: s)) 0 ≠ [0] := fun e => ((interAspects_zero rfl).1 e).1 rfl
        change interAspects (j :: j :: interleave s s) 0 ≠ [0] at this
        change q.setLink (j :: j :: interleave s s) w = _
        unfold setLink
        simp only
        rw [if_neg this]
      have hreg : register (interleave (j :: s) (j :: s)) (E.sliceAdd 0 i).1 = register (interleave (i :: s) (j :: s)) E := by
        have hl0 : 0 < E.slices.length := by have := hE.slen; omega
        have n2 : ∀ (q : MPlex α W) (x : α), q.P0 → (q.addLayer x 0).2 = none := by
          intro q x hq
          have hq0 : 0 < q.slices.length := by have := hq.slen; omega
          unfold addLayer
          rw [if_pos rfl]
          cases hs : q.slices with
          | nil => rw [hs] at hq0; simp at hq0
          | cons a t =>
            simp only [List.getElem?_cons_zero]
            split
            · rfl
            · unfold addNode regNode sliceAdd
              rw [if_pos hq0]; rfl
        unfold register
        simp only [interleave, addLinkNodes, List.drop_succ_cons, List.drop_zero]
        rw [if_pos (by rw [fic_sliceAdd]; exact hfE), if_pos hfE, Outcome.andThen_of_eq (n2 _ _ hE1),
          Outcome.andThen_of_eq (n2 _ _ hE), addLayer_zero_eq hE1, addLayer_zero_eq hE]
        have hE2 : ((E.sliceAdd 0 i).1.sliceAdd 0 j).1.P0 := (sliceAdd_zero hE1 j).2.1
        have : ((E.sliceAdd 0 i).1.sliceAdd 0 j).1.addLayer j 0 = (E.sliceAdd 0 i).1.addLayer j 0 := by
          have e2 : ((E.sliceAdd 0 i).1.sliceAdd 0 j).1.inSlice 0 j := ((sliceAdd_zero hE1 j).2.2.sl 0 j).2 (.inr ⟨rfl, rfl⟩)
          rw [Prod.ext_iff]
          refine ⟨?_, by rw [n2 _ _ hE2, n2 _ _ hE1]⟩
          rw [addLayer_zero_eq hE2, addLayer_zero_eq hE1, sliceAdd_noop hE2 e2]
        rw [this]
      rw [hset2, hreg, hrE, Outcome.andThen_ok, hno]
    · refine same (f := fun q => (register (interleave (i :: s) (j :: t)) q).andThen fun q =>
        q.setLink (interleave (i :: s) (j :: t)) w) (hset p rfl) (hset (emptied L p) rfl) ((comm_register hf _).andThen ?_)
      have hfr := fic_register hf (interleave (i :: s) (j :: t))
      generalize (register (interleave (i :: s) (j :: t)) p).1 = r at hfr
      unfold Comm
      change setLink (emptied L r) (i :: j :: interleave s t) w = (emptied L (r.setLink (i :: j :: interleave s t) w).1,
        (r.setLink (i :: j :: interleave s t) w).2)
      unfold setLink
      simp only
      split
      · rename_i hint
        have hst' := (interAspects_zero (i := i) (j := j) hst).1 hint
        rw [evens_interleave hst]
        exact comm_childSetItem hfr (fun e => hok ⟨hst', e⟩) i j w
      · rfl

theorem lkA_emptied (K : LKey α) (a b : List α) : (emptied L p).lkA K a b = if K = L then none else p.lkA K a b := by
  unfold lkA
  by_cases hK : K = L
  · subst hK
    rw [if_pos rfl]
    unfold child? emptied
    simp only
    rw [get_emptyAt_self]
    cases Dict.get p.A K with
    | none => rfl
    | some c =>
      simp only [Option.map_some, Option.bind_some]
      split <;> rfl
  · rw [if_neg hK, child_emptied_ne hK]

end MPlex

variable {cs : List (Coupling α W)} {dir : Bool} {z : W}

theorem emptied_after (hcs : cs ≠ []) (L : LKey α) (ops : List (POp α W)) :
    ∃ ops0, emptied L (afterP cs dir z true ops) = afterP cs dir z true ops0 ∧ (Spec.NoIntraSelf ops → Spec.NoIntraSelf ops0) := by
  induction ops using List.reverseRecOn with
  | nil => exact ⟨[], rfl, id⟩
  | append_singleton ops op ih =>
    obtain ⟨ops0, e, hn⟩ := ih
    have hf := (after_params hcs dir z true ops).2.2.2.1
    obtain ⟨ops', e', hn'⟩ := emptied_step (L := L) (after_pinv hcs dir z true ops) (by rw [e]; exact (after_pinv hcs dir z true ops0).core) hf op
    refine ⟨ops0 ++ ops', ?_, fun h K i w hm => ?_⟩
    · rw [after_snocP hcs, e', e]
      unfold afterP run
      rw [List.foldl_append]
    · rcases List.mem_append.1 hm with hm | hm
      · exact hn (fun K i w hm => h K i w (List.mem_append_left _ hm)) K i w hm
      · exact h K i w (by rw [hn' K i w hm]; simp)

theorem BuiltX.forget {p : MPlex α W} {al : Bool} {ns ns' : Prop} {S : α → Prop} {LY : Nat → α → Prop} {NL : α → List α → Prop}
    {R : List α → α → α → W} (h : BuiltX p cs dir z al ns S LY NL R) (hn : ns' → ns) : BuiltX p cs dir z al ns' S LY NL R := by
  obtain ⟨ops0, h0, h1, h2⟩ := h
  exact ⟨ops0, h0, fun h => h1 (hn h), h2⟩

open Classical in
/-- The network with an emptied layer. -/
theorem built_addEmpty (hcs : cs ≠ []) {s : List α} {ops : List (POp α W)} (hs : Spec.HasLayer cs.length true ops (.ofList s)) :
    BuiltX ((afterP cs dir z true ops).addEmpty (.ofList s)) cs dir z true (Spec.NoIntraSelf ops)
      (fun x => Spec.Happened (Spec.NamesNodeP cs.length true x) ops)
      (fun a x => ∃ op ∈ ops, Spec.NamesLayerP cs.length true a x op) (fun _ _ => False)
      (fun t i j => if t = s then 0 else Spec.readP cs.length dir true ops t i j) := by
  obtain ⟨s0, s1, s2, s3, s4⟩ := after_spec hcs dir z true ops
  have hg : (Dict.get (afterP cs dir z true ops).A (.ofList s)).isSome = true := by
    have := (s2 _).2 hs
    unfold child? at this
    simpa using this
  rw [← emptied_eq hg]
  obtain ⟨ops0, e, hn⟩ := emptied_after (dir := dir) (z := z) hcs (.ofList s) ops
  obtain ⟨t0, t1, t2, t3, t4⟩ := after_spec hcs dir z true ops0
  refine ⟨ops0, e, hn, fun x => ?_, fun a x h1 h2 => ?_, fun h => (nomatch h), fun t i j ht => ?_⟩
  · rw [← t0, ← e]; exact s0 x
  · rw [← t1 a x h1, ← e]; exact s1 a x h1
  · dsimp only
    rw [← t4 t i j ht, ← e, lkA_emptied]
    by_cases h : t = s
    · rw [if_pos h, if_pos (by rw [h])]; rfl
    · rw [if_neg h, if_neg (fun h' => h (ofList_inj' h')), s4 t i j ht]

end Pymnet

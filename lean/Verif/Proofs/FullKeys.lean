import Verif.Proofs.Looks

/-! Histories in which every layer tuple given to `add_node` is complete: the registry of such a network holds complete layers
only, and so do the results of `subnet` and `relabel`. -/

namespace Pymnet

open Py

variable {α W : Type} [DecidableEq α] [DecidableEq W]

/-- `add_node` is never called with a layer tuple of a wrong length. -/
def Spec.FullLayers (aspects : Nat) (ops : List (Op α W)) : Prop :=
  ∀ n L, Op.addNode n (some L) ∈ ops → L.toList.length = aspects

namespace MNet

variable {m : MNet α W}

/-- the registry holds complete layers only -/
structure Full (m : MNet α W) (d : Nat) : Prop where
  inv : m.Inv
  asp : m.aspects = d
  len : ∀ n L, m.onLayer n L → L.toList.length = d

theorem Full.addNode {d : Nat} (h : m.Full d) (n : α) (l : Option (LKey α)) (hl : ∀ L, l = some L → L.toList.length = d) :
    (m.addNode n l).1.Full d := by
  have hi : (m.step (.addNode n l)).1.Inv := step_inv h.inv _
  refine ⟨hi, (step_params h.inv (.addNode n l)).1.trans h.asp, fun n' L' ho => ?_⟩
  rw [addNode_onLayer h.inv.r.slen] at ho
  rcases ho with ho | ⟨-, h2, -⟩
  · exact h.len n' L' ho
  · exact hl L' h2

theorem Full.addLayer {d : Nat} (h : m.Full d) (x : α) (a : Nat) : (m.addLayer x a).1.Full d := by
  have hi : (m.step (.addLayer x a)).1.Inv := step_inv h.inv _
  refine ⟨hi, (step_params h.inv (.addLayer x a)).1.trans h.asp, fun n' L' ho => ?_⟩
  rw [addLayer_onLayer h.inv.r] at ho
  exact h.len n' L' ho

theorem Full.setItem {d : Nat} (h : m.Full d) (i : List α) (w : W) : (m.setItem i w).1.Full d := by
  have hi : (m.step (.setItem i w)).1.Inv := step_inv h.inv _
  refine ⟨hi, (step_params h.inv (.setItem i w)).1.trans h.asp, fun n' L' ho => ?_⟩
  by_cases hl : i.length = 2 * (m.aspects + 1) ∨ i.length = m.aspects + 2
  · obtain ⟨u, v, ha⟩ := exists_addresses hl
    obtain ⟨-, -, -, -, -, -, -, -, -, h10⟩ := setItem_spec h.inv ha w
    rw [h10] at ho
    rcases ho with ho | ⟨-, s, rfl, hs⟩
    · exact h.len n' L' ho
    · rw [ofList_toList]
      have hu := ha.1
      have hv := ha.2.1
      have := h.asp
      rcases hs with rfl | rfl
      · simp only [List.length_cons] at hu; omega
      · simp only [List.length_cons] at hv; omega
  · rw [setItem_arity m hl] at ho
    exact h.len n' L' ho

theorem Full.nodeSet {d : Nat} (h : m.Full d) (a b : List α) (w : W) : (m.nodeSet a b w).1.Full d := by
  unfold MNet.nodeSet
  split
  · exact h
  · exact h.setItem _ _

theorem Full.init (d : Nat) (z : W) (dir al : Bool) : (init d z dir al : MNet α W).Full d :=
  ⟨init_inv .., rfl, fun n L h => by simp [MNet.init, onLayer] at h⟩

theorem Full.run {d : Nat} (h : m.Full d) (ops : List (Op α W)) (hf : Spec.FullLayers d ops) : (m.run ops).Full d := by
  induction ops generalizing m with
  | nil => exact h
  | cons op t ih =>
    refine ih (m := (m.step op).1) ?_ fun n L hL => hf n L (List.mem_cons_of_mem _ hL)
    cases op with
    | addNode n l => exact h.addNode n l fun L hL => hf n L (by rw [hL]; exact List.mem_cons_self)
    | addLayer x a => exact h.addLayer x a
    | setItem i w => exact h.setItem i w

end MNet

theorem toExcept_ok {σ : Type} {o : Outcome σ} {s : σ} (h : o.toExcept = .ok s) : s = o.1 := by
  obtain ⟨a, e⟩ := o
  cases e with
  | none => exact (Except.ok.inj h).symm
  | some e => cases h

/-- an invariant of a loop -/
theorem forE_holds {σ β : Type} {P : σ → Prop} {f : σ → β → Except Err σ} {l : List β} {s s' : σ} (hs : P s)
    (hf : ∀ s b s', b ∈ l → P s → f s b = .ok s' → P s') (h : forE f l s = .ok s') : P s' := by
  induction l generalizing s with
  | nil => cases h; exact hs
  | cons b t ih =>
    simp only [forE] at h
    cases hb : f s b with
    | error e => rw [hb] at h; cases h
    | ok s1 =>
      rw [hb] at h
      exact ih (hf s b s1 List.mem_cons_self hs hb) (fun s b s' hm => hf s b s' (List.mem_cons_of_mem _ hm)) h

namespace MNet

variable {m : MNet α W}

theorem full_subnetLayers (v : View α W) {d : Nat} (ss : List (List α)) (a : Nat) {n n' : MNet α W} (h : n.Full d)
    (e : subnetLayers v ss a n = .ok n') : n'.Full d := by
  induction ss generalizing a n with
  | nil => cases e; exact h
  | cons s t ih =>
    simp only [subnetLayers] at e
    split at e
    · split at e
      · cases e
      · rename_i m1 he
        refine ih _ (forE_holds (P := fun m => Full m d) h (fun s b s' _ hs hb => ?_) he) e
        split at hb
        · rw [toExcept_ok hb]; exact hs.addLayer _ _
        · cases hb; exact hs
    · exact ih _ h e

theorem full_copyLink (v : View α W) {d : Nat} (test : Bool) (a b : List α) {n n' : MNet α W} (h : n.Full d)
    (e : copyLink v test a n b = .ok n') : n'.Full d := by
  unfold copyLink at e
  split at e
  · cases e
  · split at e
    · cases e
    · split at e
      · cases e; exact h
      · rw [toExcept_ok e]; exact h.nodeSet _ _ _

theorem full_copyNode (v : View α W) {d : Nat} (sets : List (List α)) (total : Nat) (a : List α) {n n' : MNet α W}
    (h : n.Full d) (e : copyNode v sets total n a = .ok n') : n'.Full d := by
  unfold copyNode at e
  split at e
  · cases e
  · split at e
    · exact forE_holds (P := fun m => Full m d) h (fun s b s' _ hs he => full_copyLink v _ _ _ hs he) e
    · split at e
      · cases e
      · exact forE_holds (P := fun m => Full m d) h (fun s b s' _ hs he => full_copyLink v _ _ _ hs he) e

theorem full_subnetInto (v : View α W) {d : Nat} (sel : List (Option (List α))) (nolinks : Bool) {n n' : MNet α W}
    (h : n.Full d) (hv : ∀ nls, v.nodeLayers = .ok nls → ∀ nl ∈ nls, nl.length = d + 1)
    (e : v.subnetInto sel nolinks n = .ok n') : n'.Full d := by
  simp only [View.subnetInto] at e
  split at e
  · cases e
  · split at e
    · cases e
    · split at e
      · cases e
      · rename_i m1 e1
        have h1 := full_subnetLayers v _ _ h e1
        split at e
        · cases e
        · rename_i nls e2
          split at e
          · cases e
          · rename_i m2 e3
            have h2 : m2.Full d := by
              split at e3
              · cases e3; exact h1
              · rename_i hn
                rw [if_neg hn] at e2
                refine forE_holds (P := fun m => Full m d) h1 (fun s b s' hb hs he => ?_) e3
                have hb' := hv nls e2 b (List.mem_of_mem_filter hb)
                cases b with
                | nil => cases he
                | cons x l =>
                  simp only [addNodeLayer] at he
                  rw [toExcept_ok he]
                  refine hs.addNode _ _ fun L hL => ?_
                  cases hL
                  rw [ofList_toList]
                  simp only [List.length_cons] at hb'; omega
            split at e
            · cases e; exact h2
            · refine forE_holds (P := fun m => Full m d) h2 (fun s b s' hb hs he => ?_) e
              exact full_copyNode v _ _ _ hs he

theorem full_relabelLayers {d : Nat} (ds : List (Dict α α)) (ss : List (List α)) (a : Nat) {n n' : MNet α W} (h : n.Full d)
    (e : relabelLayers ds ss a n = .ok n') : n'.Full d := by
  induction ds generalizing ss a n with
  | nil => cases e; exact h
  | cons D ds ih =>
    cases ss with
    | nil => cases e; exact h
    | cons s ss =>
      simp only [relabelLayers] at e
      split at e
      · cases e
      · rename_i m1 he
        refine ih _ _ (forE_holds (P := fun m => Full m d) h (fun s b s' _ hs hb => ?_) he) e
        rw [toExcept_ok hb]; exact hs.addLayer _ _

theorem full_relabel {d : Nat} (hm : m.aspects = d) (hnl : ∀ nl ∈ m.nodeLayers, nl.length = d + 1) (nodeNames : Dict α α)
    (layerNames : List (Dict α α)) {n' : MNet α W} (e : m.relabel nodeNames layerNames = .ok n') : n'.Full d := by
  subst hm
  simp only [MNet.relabel] at e
  split at e
  · cases e
  · rename_i m1 e1
    have h1 : m1.Full m.aspects := forE_holds (P := fun n => Full n m.aspects) (Full.init ..) (fun s b s' _ hs hb => by
      rw [toExcept_ok hb]; exact hs.addNode _ _ (by simp)) e1
    split at e
    · cases e
    · rename_i m2 e2
      have h2 := full_relabelLayers _ _ _ h1 e2
      split at e
      · cases e
      · rename_i m3 e3
        have h3 : m3.Full m.aspects := by
          split at e3
          · cases e3; exact h2
          · refine forE_holds (P := fun n => Full n m.aspects) h2 (fun s b s' hb hs he => ?_) e3
            have hb' := hnl b hb
            cases b with
            | nil => cases he
            | cons x l =>
              simp only [relabelNodeLayer] at he
              rw [toExcept_ok he]
              refine hs.addNode _ _ fun L hL => ?_
              cases hL
              rw [ofList_toList]
              simp only [List.length_cons] at hb'
              have hp : m.aspects ≤ (padNames m.aspects layerNames).length := by
                simp only [padNames, List.length_append, List.length_replicate]; omega
              simp only [renameAll, List.length_zipWith]; omega
        split at e
        · cases e
        · exact forE_holds (P := fun n => Full n m.aspects) h3 (fun s b s' _ hs hb => by
            rw [toExcept_ok hb]; exact hs.setItem _ _) e

end MNet

namespace Spec.Looks

variable {m o : MNet α W} {d : Nat} {z : W} {dir al : Bool} {S : Nat → α → Prop} {NL : List α → Prop}
    {R : List α → List α → W}

theorem onLayer_iff (h : Spec.Looks m d z dir false S NL R) (hm : m.Full d) (n : α) (L : LKey α) :
    m.onLayer n L ↔ NL (n :: L.toList) ∧ L = .ofList L.toList := by
  have hf : m.fic = false := h.aligned_eq
  have hd := h.aspects_eq
  rw [← h.nodeLayers.2, MNet.mem_nodeLayers h.inv.r, if_neg (by simp [hf])]
  constructor
  · intro ho
    have hl := hm.len n L ho
    have hL : L = .ofList L.toList := by
      rcases (h.inv.r.nlkind n L ho).2 with ⟨-, a, rfl⟩ | ⟨h2, l, rfl, -⟩
      · rfl
      · match l, hl with
        | [], e => simp [LKey.toList] at e; omega
        | [a], e => simp [LKey.toList] at e; omega
        | a :: b :: t', e => rfl
    refine ⟨⟨by simp only [List.length_cons]; omega, n, L.toList, rfl, ?_⟩, hL⟩
    rw [← hL]; exact ho
  · rintro ⟨⟨-, n', t, e, ho⟩, hL⟩
    cases e
    rw [hL]; exact ho

/-- Two networks that look alike and hold complete layers only are `==`. -/
theorem eq_full (h : Spec.Looks m d z dir al S NL R) (ho : Spec.Looks o d z dir al S NL R) (fm : m.Full d) (fo : o.Full d) :
    m.eq o = .ok true := by
  cases al with
  | true => exact h.eq ho (Or.inl rfl)
  | false => exact h.eqOn ho fun _ n L => (h.onLayer_iff fm n L).trans (ho.onLayer_iff fo n L).symm

end Spec.Looks

end Pymnet

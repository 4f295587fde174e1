import Verif.Proofs.NxAdj

/-!
C114 and C115: the mappings that show a network to networkx.
-/

namespace Pymnet

open Py NxAdj

variable {α W : Type} [DecidableEq α] [DecidableEq W]

/-! ### C114 -/

/-- **C114.** Iterating over `adj` (or `node`) yields every node once; its length is the number of nodes; a key is accepted exactly
if it is a node, else `KeyError`. -/
theorem C114_nodes {m : MNet α W} {z : W} {N : α → Prop} {w : α → α → W} (h : Spec.Graph m z N w) :
    (adjIter m).Nodup ∧ (∀ u, u ∈ adjIter m ↔ N u) ∧ adjLen m = (adjIter m).length ∧
      ∀ u, (N u → adjGet m u = .ok ()) ∧ (¬ N u → adjGet m u = .error .keyError) := by
  obtain ⟨l, h1, h2, h3⟩ := h.nodes
  have e : adjIter m = l := by
    unfold MNet.getLayers at h1
    unfold adjIter
    revert h1
    cases m.slices with
    | nil => intro h1; cases h1
    | cons s t => intro h1; injection h1
  refine ⟨e ▸ h2, fun u => e ▸ h3 u, rfl, fun u => ⟨fun hu => ?_, fun hu => ?_⟩⟩
  · unfold adjGet; rw [if_pos]; rw [e]; exact (h3 u).2 hu
  · unfold adjGet; rw [if_neg]; rw [e]; exact fun hm => hu ((h3 u).1 hm)

/-- **C114.** Iterating over `adj[u]` yields exactly the nodes with a link to `u`, once each; its length is their number; a key is
accepted exactly if it is one of them, else `KeyError`. -/
theorem C114_rows {m : MNet α W} {z : W} {N : α → Prop} {w : α → α → W} (h : Spec.Graph m z N w) (u : α) :
    ∃ l, rowIter m u = .ok l ∧ l.Nodup ∧ (∀ v, v ∈ l ↔ w u v ≠ z) ∧ (∀ v ∈ l, N u ∧ N v) ∧ rowLen m u = .ok (l.length : Int) ∧
      ∀ v, (w u v ≠ z → rowGet m u v = .ok ()) ∧ (w u v = z → rowGet m u v = .error .keyError) := by
  obtain ⟨l, h1, h2, h3⟩ := h.iter u
  refine ⟨l, h1, h2, h3, fun v hv => h.link_nodes ((h3 v).1 hv), ?_, fun v => ⟨fun hv => ?_, fun hv => ?_⟩⟩
  · exact h.len h2 h3
  · unfold rowGet; rw [h1]; exact if_pos ((h3 v).2 hv)
  · unfold rowGet; rw [h1]; exact if_neg (fun hm => (h3 v).1 hm hv)

/-- **C114.** The rows agree with each other: `v in adj[u]` exactly if `u in adj[v]`, and both show the same weight, that of the
network's link. A link has the only key `"weight"`. -/
theorem C114_cells {m : MNet α W} {z : W} {N : α → Prop} {w : α → α → W} (h : Spec.Graph m z N w) (u v : α) :
    cellGet m u v true = .ok (w u v) ∧ cellGet m u v false = .error .keyError ∧ cellGet m u v true = cellGet m v u true ∧
      rowGet m u v = rowGet m v u := by
  have e : ∀ u v, cellGet m u v true = .ok (w u v) := fun u v => by
    unfold cellGet; rw [if_pos rfl, h.reads]; rfl
  refine ⟨e u v, rfl, by rw [e, e, h.symm], ?_⟩
  obtain ⟨-, -, -, -, -, -, h1⟩ := C114_rows h u
  obtain ⟨-, -, -, -, -, -, h2⟩ := C114_rows h v
  by_cases hc : w u v = z
  · rw [(h1 v).2 hc, (h2 u).2 (h.symm u v ▸ hc)]
  · rw [(h1 v).1 hc, (h2 u).1 (h.symm u v ▸ hc)]

/-- Every network without aspects that public calls can produce is a graph. -/
theorem C114_reachable (z : W) (ops : List (Op α W)) :
    ∃ N w, Spec.Graph ((MNet.init 0 z false true).run ops : MNet α W) z N w := Spec.Graph.of_reachable z ops

/-! ### C115 -/

/-- **C115.** `adj[u][v]=data`, for attributes that are empty or start with the weight: the link between `u` and `v` has that
weight afterwards, both are nodes, and nothing else changes. (The full property, with `weightOf` the value under the key `"weight"`
wherever it stands and 1 if there is none, is false, see `C115_false`.) Writing the value of missing links on an existing
self-link is excluded, see `C115_self`. -/
theorem C115_set_partial [One W] {m : MNet α W} {z : W} {N : α → Prop} {w : α → α → W} (h : Spec.Graph m z N w) (u v : α)
    (data : Data W) (hfirst : ∀ kw rest, data = .dict (kw :: rest) → kw.1 = "weight")
    (hself : u = v → Spec.weightOf data = z → w u u = z) :
    ∃ m', rowSet m u v data = (m', none) ∧
      Spec.Graph m' z (fun x => N x ∨ x = u ∨ x = v) (Spec.relink w u v (Spec.weightOf data)) := by
  have e : rowSet m u v data = m.setItem [u, v] (Spec.weightOf data) := by
    match data, hfirst with
    | .bare c, _ => rfl
    | .dict [], _ => rfl
    | .dict ((k, c) :: rest), hf =>
      have : k = "weight" := hf _ _ rfl
      subst this
      rfl
  rw [e]
  exact h.set u v _ hself

/-- **C115 is false of the code**: of several attributes the first is taken for the weight. -/
theorem C115_false :
    ∃ m', rowSet (MNet.init 0 (0 : Int) false true : MNet Nat Int) 1 2 (.dict [("length", 7), ("weight", 2)]) = (m', none) ∧
      cellGet m' 1 2 true = .ok 7 ∧ Spec.weightOf (.dict [("length", 7), ("weight", 2)] : Data Int) = 2 := by
  exact ⟨_, Prod.ext rfl (by decide +kernel), by decide +kernel, by decide +kernel⟩

/-- **C115.** `adj[u][v]["weight"]=c` gives the link that weight; `adj[u][v][key]=c` with another key does nothing. -/
theorem C115_cell {m : MNet α W} {z : W} {N : α → Prop} {w : α → α → W} (h : Spec.Graph m z N w) (u v : α) (c : W)
    (hself : u = v → c = z → w u u = z) :
    (∃ m', cellSet m u v true c = (m', none) ∧ Spec.Graph m' z (fun x => N x ∨ x = u ∨ x = v) (Spec.relink w u v c)) ∧
      cellSet m u v false c = (m, none) :=
  ⟨h.set u v c hself, rfl⟩

/-- **C115.** `del adj[u][v]` and `del adj[u][v]["weight"]`, for `u ≠ v`: there is no link between `u` and `v` afterwards and the other
links stay. No exception is raised, also if there was no link, and then both become nodes (so `remove_edge` of networkx does not
report missing links, see `C115_delete_missing`). -/
theorem C115_delete_partial {m : MNet α W} {z : W} {N : α → Prop} {w : α → α → W} (h : Spec.Graph m z N w) {u v : α} (huv : u ≠ v) :
    ∃ m', rowDel m u v = (m', none) ∧ cellDel m u v true = (m', none) ∧ cellDel m u v false = (m, none) ∧
      Spec.Graph m' z (fun x => N x ∨ x = u ∨ x = v) (Spec.relink w u v z) := by
  obtain ⟨m', e, hg⟩ := h.set u v z (fun e => absurd e huv)
  have : rowDel m u v = (m', none) := by unfold rowDel; rw [h.params.2.2, e]
  exact ⟨m', this, this, rfl, hg⟩

/-- The deletion of a link that does not exist raises nothing and adds nodes. -/
theorem C115_delete_missing :
    ∃ m', rowDel (MNet.init 0 (0 : Int) false true : MNet Nat Int) 1 2 = (m', none) ∧ adjIter m' = [1, 2] :=
  ⟨_, Prod.ext rfl (by decide +kernel), by decide +kernel⟩

/-- **C115.** The deletion of an existing self-link, in every way, raises `KeyError`. -/
theorem C115_self [One W] {m : MNet α W} {z : W} {N : α → Prop} {w : α → α → W} (h : Spec.Graph m z N w) {u : α} (hu : w u u ≠ z) :
    (rowDel m u u).2 = some .keyError ∧ (cellDel m u u true).2 = some .keyError ∧
      (cellSet m u u true z).2 = some .keyError ∧ (rowSet m u u (.bare z)).2 = some .keyError := by
  have := h.set_err u hu
  have e : (rowDel m u u).2 = some .keyError := by unfold rowDel; rw [h.params.2.2]; exact this
  exact ⟨e, e, this, this⟩

/-- **C115.** `adj[u]={v:data,...}` with attributes as in `C115_set_partial`: `u` and all keys are nodes afterwards; the link between
`u` and a key has the weight of the data; all other links are as before. -/
theorem C115_row_partial [One W] {m : MNet α W} {z : W} {N : α → Prop} {w : α → α → W} (h : Spec.Graph m z N w) (u : α)
    (d : List (α × Data W)) (hk : (d.map Prod.fst).Nodup)
    (hfirst : ∀ x ∈ d, ∀ kw rest, x.2 = .dict (kw :: rest) → kw.1 = "weight")
    (hz : ∀ x ∈ d, x.1 = u → Spec.weightOf x.2 ≠ z) :
    ∃ m' w', adjSet m u d = .ok m' ∧ Spec.Graph m' z (fun x => N x ∨ x = u ∨ x ∈ d.map Prod.fst) w' ∧
      (∀ x ∈ d, w' u x.1 = Spec.weightOf x.2) ∧
      ∀ i j, (i = u → j ∉ d.map Prod.fst) → (j = u → i ∉ d.map Prod.fst) → w' i j = w i j := by
  obtain ⟨m1, e1, h1⟩ := h.add u
  have := forE_ok (f := fun m (kv : α × Data W) => (rowSet m u kv.1 kv.2).toExcept) (s := m1)
    (P := fun pre m' => ∃ w', Spec.Graph m' z (fun x => N x ∨ x = u ∨ x ∈ pre.map Prod.fst) w' ∧
      (∀ x ∈ pre, w' u x.1 = Spec.weightOf x.2) ∧
      ∀ i j, (i = u → j ∉ pre.map Prod.fst) → (j = u → i ∉ pre.map Prod.fst) → w' i j = w i j) d
    ⟨w, h1.congr (by simp) (fun _ _ => rfl), by simp, by simp⟩ ?_
  · obtain ⟨m', e2, w', h2, h3, h4⟩ := this
    refine ⟨m', w', ?_, h2, h3, h4⟩
    unfold adjSet; rw [e1]; exact e2
  intro pre b post m2 hd ⟨w2, h2, h3, h4⟩
  have hb : b ∈ d := by rw [hd]; simp
  obtain ⟨m3, e3, h5⟩ := C115_set_partial h2 u b.1 b.2 (hfirst b hb) (fun e hw => absurd hw (hz b hb e.symm))
  have hnb : b.1 ∉ pre.map Prod.fst := by
    rw [hd, List.map_append, List.map_cons, List.nodup_append] at hk
    exact fun hm => hk.2.2 _ hm _ (by simp) rfl
  refine ⟨m3, by simp [e3, Outcome.toExcept], _, h5.congr (fun x => ?_) (fun _ _ => rfl), fun x hx => ?_, fun i j hi hj => ?_⟩
  · simp only [List.map_append, List.map_cons, List.map_nil, List.mem_append, List.mem_singleton]; tauto
  · rw [List.mem_append, List.mem_singleton] at hx
    rcases hx with hx | rfl
    · have hne : x.1 ≠ b.1 := fun e => hnb (e ▸ List.mem_map_of_mem hx)
      rw [← h3 x hx]
      unfold Spec.relink
      rw [if_neg]
      rintro (⟨-, e⟩ | ⟨e1, e2⟩)
      · exact hne e
      · exact hne (e2.trans e1)
    · simp [Spec.relink]
  · simp only [List.map_append, List.map_cons, List.map_nil, List.mem_append, List.mem_singleton, not_or] at hi hj
    rw [← h4 i j (fun e => (hi e).1) (fun e => (hj e).1)]
    unfold Spec.relink
    rw [if_neg]
    rintro (⟨e1, e2⟩ | ⟨e1, e2⟩)
    · exact (hi e1).2 e2
    · exact (hj e2).2 e1

/-- `adj[u]={...}` does not remove the links that `u` had before: `adj[u]` is not the assigned mapping afterwards. -/
theorem C115_row_false :
    ∃ m', adjSet ((MNet.init 0 (0 : Int) false true).run [.setItem [1, 2] 5] : MNet Nat Int) 1 [(3, .dict [("weight", 4)])] = .ok m' ∧
      rowIter m' 1 = .ok [2, 3] := by
  refine ⟨_, rfl, by decide +kernel⟩

example : Spec.Graph ((MNet.init 0 (0 : Int) false true).run [.setItem [1, 2] 5] : MNet Nat Int) 0 (fun x => x ∈ [1, 2])
    (fun i j => if (i = 1 ∧ j = 2) ∨ (i = 2 ∧ j = 1) then 5 else 0) := by
  obtain ⟨m', e, h⟩ := (show Spec.Graph (MNet.init 0 (0 : Int) false true : MNet Nat Int) 0 (fun _ => False) (fun _ _ => 0) from
    (Built.init 0 0 false true).graph (fun _ => Iff.rfl) (fun _ _ => rfl)).set 1 2 5 (by decide)
  have : ((MNet.init 0 (0 : Int) false true).run [.setItem [1, 2] 5] : MNet Nat Int) = m' := by
    change ((MNet.init 0 (0 : Int) false true : MNet Nat Int).setItem [1, 2] 5).1 = m'
    rw [e]
  rw [this]
  exact h.congr (by simp) (fun _ _ => rfl)

end Pymnet

import Verif.Proofs.ClusteringPlex2
import Verif.Proofs.Diagnostics

/-! `gcc_super_graph` and the coefficients computed layer by layer. -/

set_option linter.unusedSectionVars false
set_option linter.unusedSimpArgs false

namespace Pymnet

open Py MPlex

/-- Internal: all node-layers of an undirected network as the nodes of a graph. -/
structure Sup {α W : Type} [DecidableEq α] [DecidableEq W] (v : View α W) (X : Finset (List α))
    (w : List α → List α → W) : Prop where
  nodup : (product v.slices).Nodup
  mem : ∀ x, x ∈ product v.slices ↔ x ∈ X
  num2 : ∀ a ∈ X, ∀ b ∈ X, v.num2 a b = .ok (w a b)
  sym : ∀ a ∈ X, ∀ b ∈ X, w a b = w b a
  neigh : ∀ a ∈ X, ∃ l, v.neighbors a = .ok l ∧ l.Nodup ∧ (∀ x, x ∈ l ↔ x ∈ X ∧ w a x ≠ v.noEdge) ∧
    v.itemDeg a = .ok (l.length : Int)

section sup

variable {α W : Type} [DecidableEq α] [DecidableEq W] {v : View α W} {X : Finset (List α)} {w : List α → List α → W}

theorem Sup.ccNumDen (h : Sup v X w) {a : List α} (ha : a ∈ X) :
    ∃ t : Nat, v.ccNumDen a = .ok (t, ((Spec.triads X (fun i j => w i j ≠ v.noEdge) a).card : ℚ) / 2) ∧
      (Spec.triangles X (fun i j => w i j ≠ v.noEdge) a).card = 2 * t := by
  obtain ⟨ns, hn, hnd, hm, hk⟩ := h.neigh a ha
  refine ⟨pairSum (fun a b => if w a b ≠ v.noEdge then 1 else 0) ns, ?_, ?_⟩
  · rw [View.ccNumDen_eq hk hn hnd (fun a ha b hb _ => h.num2 a ((hm a).1 ha).1 b ((hm b).1 hb).1),
      triads_card hnd hm]
    congr 3
    have : ns.length ≤ ns.length * ns.length := Nat.le_mul_self _
    push_cast [this]
    ring
  · exact triangles_card hnd hm fun a ha b hb => by
      rw [h.sym a ((hm a).1 ha).1 b ((hm b).1 hb).1]

theorem Sup.gcc (h : Sup v X w) :
    v.gccSuperGraph = .ok (Spec.quotient (∑ a ∈ X, ((Spec.triangles X (fun i j => w i j ≠ v.noEdge) a).card : ℚ))
      (∑ a ∈ X, ((Spec.triads X (fun i j => w i j ≠ v.noEdge) a).card : ℚ))) := by
  have hstep : ∀ x ∈ X, ∀ s : ℕ × ℚ, v.superStep s x = .ok (s + ((Spec.triangles X (fun i j => w i j ≠ v.noEdge) x).card / 2,
      ((Spec.triads X (fun i j => w i j ≠ v.noEdge) x).card : ℚ) / 2)) := by
    intro x hx s
    obtain ⟨t, e, e2⟩ := h.ccNumDen hx
    unfold View.superStep
    rw [e, e2]
    simp only [ok_bind, pure_eq_ok]
    rw [Nat.mul_div_cancel_left _ (by norm_num)]
    rfl
  unfold View.gccSuperGraph
  rw [forE_fin h.nodup h.mem hstep]
  simp only [ok_bind, pure_eq_ok, Prod.fst_add, Prod.snd_add, Prod.fst_sum, Prod.snd_sum, zero_add]
  rw [← Finset.sum_div]
  have e : ((∑ x ∈ X, (Spec.triangles X (fun i j => w i j ≠ v.noEdge) x).card / 2 : ℕ) : ℚ) =
      (∑ x ∈ X, ((Spec.triangles X (fun i j => w i j ≠ v.noEdge) x).card : ℚ)) / 2 := by
    rw [Finset.sum_div, Nat.cast_sum]
    refine Finset.sum_congr rfl fun x hx => ?_
    obtain ⟨t, -, e2⟩ := h.ccNumDen hx
    rw [e2, Nat.mul_div_cancel_left _ (by norm_num)]
    push_cast; ring
  rw [e]
  unfold Spec.quotient
  generalize (∑ a ∈ X, ((Spec.triangles X (fun i j => w i j ≠ v.noEdge) a).card : ℚ)) = p
  generalize (∑ a ∈ X, ((Spec.triads X (fun i j => w i j ≠ v.noEdge) a).card : ℚ)) = q
  by_cases hq : q = 0
  · simp [hq]
  · rw [if_neg hq, if_pos (by simpa using hq)]
    congr 2
    field_simp

end sup

theorem Spec.Looks.sup {α W : Type} [DecidableEq α] [DecidableEq W] {m : MNet α W} {d : Nat} {z : W} {al : Bool}
    {S : Nat → α → Prop} {NL : List α → Prop} {R : List α → List α → W} (h : Spec.Looks m d z false al S NL R)
    {X : Finset (List α)} (hX : ∀ x, x ∈ X ↔ Spec.AllNodeLayers d S x) : Sup m.view X R := by
  have hi := h.inv
  have ha : m.view.aspects = d := h.aspects_eq
  have hmem : ∀ x, x ∈ product m.view.slices ↔ x ∈ X := fun x => (h.mem_product x).trans (hX x).symm
  have hlen : ∀ x ∈ X, x.length = d + 1 := fun x hx => ((hX x).1 hx).1
  refine ⟨h.sound.nodupP, hmem, fun a ha' b hb' => ?_, fun a ha' b hb' => h.sym (hlen a ha') (hlen b hb'), fun a ha' => ?_⟩
  · refine View.num2_eq (v := m.view) (by rw [ha]; exact hlen a ha') (by rw [ha]; exact hlen b hb') ?_
    rw [← h.reads_eq (hlen a ha') (hlen b hb')]
    exact MNet.getLink_interleave m (by rw [hlen a ha', hlen b hb'])
      (by intro e; have := hlen a ha'; rw [e] at this; simp at this)
  · have hsound := h.sound
    obtain ⟨l, l1, l2, l3⟩ := hsound.tot a ((hmem a).2 ha')
    have hdir : m.directed = false := h.directed_eq
    refine ⟨l, ?_, l2, fun x => ?_, ?_⟩
    · rw [View.neighbors_eq (by rw [ha]; exact hlen a ha')]; exact l1
    · rw [l3, hmem]
      refine and_congr_right fun hx => ?_
      rw [← h.reads_eq (hlen a ha') (hlen x hx), hsound.sym hdir x ((hmem x).2 hx) a ((hmem a).2 ha'), or_self]
    · rw [View.itemDeg_eq (by rw [ha]; exact hlen a ha')]
      have : l = m.iterTotal a none := by
        have : m.view.iterTotal a none = .ok (m.iterTotal a none) := rfl
        rw [l1] at this; cases this; rfl
      rw [this]
      simp only [MNet.view, MNet.deg, MNet.degOut, MNet.degDict_eq, MNet.iterTotal, hdir, Bool.false_eq_true, if_false,
        MNet.iterOut]

theorem plex_sup {α W : Type} [DecidableEq α] [DecidableEq W] [Zero W] [LawfulIntNames α] {cs : List (Coupling α W)}
    {ops : List (POp α W)} (hU : Spec.Usable cs true ops) (hs : Spec.NoIntraSelf ops) {X : Finset (List α)}
    (hX : ∀ x, x ∈ X ↔ Spec.HasNodeLayer cs.length true ops x) :
    Sup (afterP cs false 0 true ops).view X (Spec.weight cs false true ops) := by
  have hcs := hU.some_aspect
  have hpar := after_params hcs false 0 true ops
  have hsound := main_sound (directed := false) hU hs (Or.inl rfl)
  have hprod : ∀ u, u ∈ product (afterP cs false 0 true ops).view.slices ↔ Spec.HasNodeLayer cs.length true ops u := by
    intro u
    refine (after_product hcs false 0 true ops u).trans ?_
    unfold Spec.HasNodeLayer
    simp
  obtain ⟨nls, n1, -, n3⟩ := after_nodeLayers hcs false 0 true ops
  have hW : ∀ a ∈ X, ∀ b ∈ X, (afterP cs false 0 true ops).R a b = Spec.weight cs false true ops a b := fun a ha b hb =>
    main_R hU ((hX a).1 ha) ((hX b).1 hb)
  set p := afterP cs false 0 true ops with hp
  have hmem : ∀ x, x ∈ product p.view.slices ↔ x ∈ X := fun x => (hprod x).trans (hX x).symm
  have hlen : ∀ x ∈ X, x.length = p.view.aspects + 1 := fun x hx => hsound.length_of_mem ((hmem x).2 hx)
  have hdir : p.view.directed = false := hpar.2.1
  refine ⟨hsound.nodupP, hmem, fun a ha b hb => ?_, fun a ha b hb => ?_, fun a ha => ?_⟩
  · exact View.num2_eq (v := p.view) (hlen a ha) (hlen b hb)
      (after_weight hcs false true ops hU ((hX a).1 ha) ((hX b).1 hb)).1
  · rw [← hW a ha b hb, ← hW b hb a ha]
    exact hsound.sym hdir a ((hmem a).2 ha) b ((hmem b).2 hb)
  · obtain ⟨l, l1, l2, l3⟩ := hsound.tot a ((hmem a).2 ha)
    refine ⟨l, ?_, l2, fun x => ?_, ?_⟩
    · rw [View.neighbors_eq (hlen a ha)]; exact l1
    · rw [l3, hmem]
      refine and_congr_right fun hx => ?_
      rw [hsound.sym hdir x ((hmem x).2 hx) a ((hmem a).2 ha), or_self, hW a ha x hx]
    · rw [View.itemDeg_eq (hlen a ha)]
      exact hsound.degU hdir nls n1 a ((n3 a).2 ((hX a).1 ha)) l l1

/-! ### layer by layer -/

section layers

variable {α W : Type} [DecidableEq α] [IntNames α] [DecidableEq W] [Zero W] {p : MPlex α W} {N B : Finset α}
  {M : α → Finset α} {A : α → α → α → W}

/-- Internal: the keys of `net.A` are the layers. -/
def Keyed (p : MPlex α W) (B : Finset α) : Prop :=
  ∃ ls : List α, Dict.keys p.A = ls.map LKey.el ∧ ls.Nodup ∧ ∀ x, x ∈ ls ↔ x ∈ B

theorem seqStep_spec (h : PlexL p N B M A) {l : α} (hl : l ∈ B) {c : MNet α W} (hc : p.child? (.el l) = some c) (n : α)
    (s : List Nat × List ℚ) :
    ∃ t : ℕ, (Spec.triangles (M l) (fun i j => A i j l ≠ 0) n).card = 2 * t ∧
      seqStep n s (.el l, c) = .ok (s.1 ++ [t], s.2 ++ [((Spec.triads (M l) (fun i j => A i j l ≠ 0) n).card : ℚ) / 2]) := by
  obtain ⟨c', hc', hm, hne⟩ := h.kids l hl
  rw [hc] at hc'; cases hc'
  have hne' : c.view.noEdge = 0 := hne
  obtain ⟨ns, h1, h2, h3, h4⟩ := hm.neigh n
  rw [hne'] at h3
  have hden : ((((ns.length : Int) * ((ns.length : Int) - 1) : Int) : ℚ) / 2) =
      ((Spec.triads (M l) (fun i j => A i j l ≠ 0) n).card : ℚ) / 2 := by
    rw [triads_card h2 h3]
    have : ns.length ≤ ns.length * ns.length := Nat.le_mul_self _
    push_cast [this]
    ring
  have htri := triangles_card h2 h3 (link := fun i j => A i j l ≠ 0) (n := n)
    (fun a _ b _ => by rw [h.sym a b l])
  refine ⟨_, htri, ?_⟩
  unfold seqStep
  simp only [h4, ok_bind, pure_eq_ok, hden]
  by_cases hk : 2 ≤ (ns.length : Int)
  · rw [if_pos hk]
    have e := hm.ccNumDen n
    simp only [h1, ok_bind]
    have hp : forPairs c.view.ccPair (ns.map fun x => [x]) 0 =
        .ok (0 + pairSum (fun a b : List α => if (fun a b : List α => match a, b with | [i], [j] => A i j l | _, _ => 0) a b ≠ 0
          then 1 else 0) (ns.map fun x => [x])) := by
      refine forPairs_sum (h2.map (fun a b h => by simpa using h)) (fun i hi j hj _ s => ?_) 0
      obtain ⟨i, -, rfl⟩ := List.mem_map.1 hi
      obtain ⟨j, -, rfl⟩ := List.mem_map.1 hj
      unfold View.ccPair
      rw [hm.num2, hne']
      simp only [ok_bind, pure_eq_ok]
      by_cases hz : A i j l = 0 <;> simp [hz]
    rw [hp, pairSum_map, zero_add]
    rfl
  · rw [if_neg hk]
    have : pairSum (fun a b => if A a b l ≠ 0 then 1 else 0) ns = 0 := by
      match ns, hk with
      | [], _ => rfl
      | [x], _ => rfl
      | _ :: _ :: _, hk => simp at hk; omega
    simp only [ok_bind]
    congr! 4
    exact this.symm

theorem intraNets_eq {p : MPlex α W} {ls : List α} (hk : Dict.keys p.A = ls.map LKey.el)
    (hc : ∀ l ∈ ls, ∃ c, p.child? (.el l) = some c) :
    ∃ cs : List (α × MNet α W), cs.map Prod.fst = ls ∧ (∀ e ∈ cs, p.child? (.el e.1) = some e.2) ∧
      p.intraNets = cs.map fun e => (LKey.el e.1, e.2) := by
  unfold intraNets
  have key : ∀ (L : List (LKey α × MNet α W)) (ls : List α), L.map Prod.fst = ls.map LKey.el →
      (∀ l ∈ ls, ∃ c, p.child? (.el l) = some c) →
      ∃ cs : List (α × MNet α W), cs.map Prod.fst = ls ∧ (∀ e ∈ cs, p.child? (.el e.1) = some e.2) ∧
      (L.filterMap fun e => (p.child? e.1).map fun c => (e.1, c)) = cs.map fun e => (LKey.el e.1, e.2) := by
    intro L
    induction L with
    | nil =>
      intro ls h1 _
      have : ls = [] := List.map_eq_nil_iff.1 h1.symm
      exact ⟨[], by simp [this], by simp, rfl⟩
    | cons e t ih =>
      intro ls h1 h2
      match ls, h1, h2 with
      | l :: ls, h1, h2 =>
        simp only [List.map_cons, List.cons.injEq] at h1
        obtain ⟨c, hc⟩ := h2 l (by simp)
        obtain ⟨cs, g1, g2, g3⟩ := ih ls h1.2 (fun l hl => h2 l (by simp [hl]))
        refine ⟨(l, c) :: cs, by simp [g1], ?_, ?_⟩
        · intro e he
          rcases List.mem_cons.1 he with rfl | he
          · exact hc
          · exact g2 e he
        · rw [List.filterMap_cons]
          simp only [h1.1, hc, Option.map_some, g3, List.map_cons]
  exact key p.A ls hk hc

/-- Internal: `cc_sequence`. -/
theorem ccSequence_spec (h : PlexL p N B M A) (hK : Keyed p B) (n : α) :
    ∃ ls : List α, ls.Nodup ∧ (∀ x, x ∈ ls ↔ x ∈ B) ∧ ∃ ts : List ℕ,
      ts.map (fun t => 2 * t) = ls.map (fun l => (Spec.triangles (M l) (fun i j => A i j l ≠ 0) n).card) ∧
      p.ccSequence n = .ok (ts, ls.map fun l => ((Spec.triads (M l) (fun i j => A i j l ≠ 0) n).card : ℚ) / 2) := by
  obtain ⟨ls, k1, k2, k3⟩ := hK
  refine ⟨ls, k2, k3, ?_⟩
  obtain ⟨cs, g1, g2, g3⟩ := intraNets_eq k1 (fun l hl => by
    obtain ⟨c, hc, -⟩ := h.kids l ((k3 l).1 hl); exact ⟨c, hc⟩)
  unfold ccSequence
  rw [g3]
  have key : ∀ (cs : List (α × MNet α W)), (∀ e ∈ cs, p.child? (.el e.1) = some e.2) → (∀ e ∈ cs, e.1 ∈ B) →
      ∀ s, ∃ ts : List ℕ, ts.map (fun t => 2 * t) = cs.map (fun e => (Spec.triangles (M e.1) (fun i j => A i j e.1 ≠ 0) n).card) ∧
      forE (seqStep n) (cs.map fun e => (LKey.el e.1, e.2)) s = .ok (s.1 ++ ts, s.2 ++ cs.map fun e =>
        ((Spec.triads (M e.1) (fun i j => A i j e.1 ≠ 0) n).card : ℚ) / 2) := by
    intro cs
    induction cs with
    | nil => intro _ _ s; exact ⟨[], rfl, by simp [forE]⟩
    | cons e t ih =>
      intro h1 h2 s
      obtain ⟨x, hx, e1⟩ := seqStep_spec h (h2 e (by simp)) (h1 e (by simp)) n s
      obtain ⟨ts, ht, e2⟩ := ih (fun e he => h1 e (by simp [he])) (fun e he => h2 e (by simp [he]))
        (s.1 ++ [x], s.2 ++ [((Spec.triads (M e.1) (fun i j => A i j e.1 ≠ 0) n).card : ℚ) / 2])
      refine ⟨x :: ts, by simp [ht, hx], ?_⟩
      simp only [List.map_cons, forE, e1]
      rw [e2]
      simp
  obtain ⟨ts, t1, t2⟩ := key cs g2 (fun e he => (k3 e.1).1 (by rw [← g1]; exact List.mem_map_of_mem he)) ([], [])
  refine ⟨ts, ?_, ?_⟩
  · rw [t1, ← g1, List.map_map]; rfl
  · rw [t2, ← g1, List.map_map]; simp [Function.comp_def]

/-- Internal: the sums of the two lists of `cc_sequence`. -/
theorem ccSequence_sum (h : PlexL p N B M A) (hK : Keyed p B) (n : α) :
    ∃ s, p.ccSequence n = .ok s ∧
      (s.1.sum : ℚ) = (∑ l ∈ B, ((Spec.triangles (M l) (fun i j => A i j l ≠ 0) n).card : ℚ)) / 2 ∧
      s.2.sum = (∑ l ∈ B, ((Spec.triads (M l) (fun i j => A i j l ≠ 0) n).card : ℚ)) / 2 := by
  obtain ⟨ls, l1, l2, ts, t1, t2⟩ := ccSequence_spec h hK n
  have hB : B = ls.toFinset := by ext x; simp [l2]
  refine ⟨_, t2, ?_, ?_⟩
  · have : 2 * ts.sum = (ls.map (fun l => (Spec.triangles (M l) (fun i j => A i j l ≠ 0) n).card)).sum := by
      rw [← t1, List.sum_map_mul_left]; simp
    rw [hB, List.sum_toFinset _ l1]
    have h2 : ((2 * ts.sum : ℕ) : ℚ) = ((ls.map (fun l => (Spec.triangles (M l) (fun i j => A i j l ≠ 0) n).card)).sum : ℕ) := by
      rw [this]
    rw [eq_div_iff (by norm_num), mul_comm]
    have h3 : (((ls.map (fun l => (Spec.triangles (M l) (fun i j => A i j l ≠ 0) n).card)).sum : ℕ) : ℚ) =
        (ls.map (fun l => ((Spec.triangles (M l) (fun i j => A i j l ≠ 0) n).card : ℚ))).sum := by
      rw [Nat.cast_list_sum, List.map_map]; rfl
    rw [← h3, ← h2, Nat.cast_mul]; rfl
  · rw [Finset.sum_div, hB, List.sum_toFinset _ l1]

theorem layersWavg_spec (h : PlexL p N B M A) (hK : Keyed p B) (n : α) :
    p.layersWavg n = if (∑ l ∈ B, ((Spec.triads (M l) (fun i j => A i j l ≠ 0) n).card : ℚ)) = 0 then .error .zeroDivisionError
      else .ok ((∑ l ∈ B, ((Spec.triangles (M l) (fun i j => A i j l ≠ 0) n).card : ℚ)) /
        (∑ l ∈ B, ((Spec.triads (M l) (fun i j => A i j l ≠ 0) n).card : ℚ))) := by
  obtain ⟨s, e, e1, e2⟩ := ccSequence_sum h hK n
  unfold layersWavg
  rw [e]
  simp only [ok_bind, divE, e1, e2]
  generalize (∑ l ∈ B, ((Spec.triads (M l) (fun i j => A i j l ≠ 0) n).card : ℚ)) = q
  by_cases hq : q = 0
  · simp [hq]
  · rw [if_neg (by simpa using hq), if_neg hq]
    congr 1
    field_simp

theorem superGraphNoCouplings_spec (h : PlexL p N B M A) (hK : Keyed p B) :
    p.superGraphNoCouplings =
      .ok (Spec.quotient (∑ n ∈ N, ∑ l ∈ B, ((Spec.triangles (M l) (fun i j => A i j l ≠ 0) n).card : ℚ))
        (∑ n ∈ N, ∑ l ∈ B, ((Spec.triads (M l) (fun i j => A i j l ≠ 0) n).card : ℚ))) := by
  choose s e e1 e2 using ccSequence_sum h hK
  unfold superGraphNoCouplings
  have := forE_fin (f := fun (t : Nat × ℚ) node => do
    let r ← p.ccSequence node
    pure (t.1 + r.1.sum, t.2 + r.2.sum)) (g := fun n => ((s n).1.sum, (s n).2.sum)) (N := N) h.lay.nodup h.lay.mem
    (fun x _ t => by rw [e]; rfl) 0
  have e0 : p.slices.headD [] = p.view.nodes := rfl
  rw [e0]
  erw [this]
  simp only [ok_bind, pure_eq_ok, Prod.fst_add, Prod.snd_add, Prod.fst_sum, Prod.snd_sum, zero_add, Prod.fst_zero,
    Prod.snd_zero]
  rw [Nat.cast_sum]
  simp only [e1, e2]
  rw [← Finset.sum_div, ← Finset.sum_div]
  unfold Spec.quotient
  generalize (∑ n ∈ N, ∑ l ∈ B, ((Spec.triangles (M l) (fun i j => A i j l ≠ 0) n).card : ℚ)) = a
  generalize (∑ n ∈ N, ∑ l ∈ B, ((Spec.triads (M l) (fun i j => A i j l ≠ 0) n).card : ℚ)) = q
  by_cases hq : q = 0
  · simp [hq]
  · rw [if_neg hq, if_pos (by simpa using hq)]
    congr 2
    field_simp

end layers

/-! ### the intra-layer networks are listed once -/

section keys

variable {α W : Type} [DecidableEq α] [DecidableEq W] [Zero W]

/-- Internal: the keys of `net.A` are different. -/
def AN (p : MPlex α W) : Prop := (Dict.keys p.A).Nodup

theorem an_then {r : Outcome (MPlex α W)} {f : MPlex α W → Outcome (MPlex α W)} (h : AN r.1)
    (hf : ∀ p, AN p → AN (f p).1) : AN (r.andThen f).1 := by
  match r, h with
  | (s, none), h => exact hf s h
  | (s, some e), h => exact h

theorem an_slice {p : MPlex α W} (h : AN p) (a : Nat) (x : α) : AN (p.sliceAdd a x).1 := by
  unfold sliceAdd; split <;> exact h

theorem an_empty {p : MPlex α W} (h : AN p) (L : LKey α) : AN (p.addEmpty L) := Dict.nodup_keys_set h _ _

theorem an_put {p : MPlex α W} (h : AN p) (L : LKey α) (c : MNet α W) : AN (p.putChild L c) := Dict.nodup_keys_set h _ _

theorem an_elem {p : MPlex α W} (h : AN p) (l : α) (a : Nat) : AN (p.addElem l a).1 := by
  unfold addElem
  split
  · exact h
  · split
    · exact h
    · apply an_slice
      generalize product ((p.slices.drop 1).set (a - 1) [l]) = L
      have : ∀ (L : List (List α)) (p : MPlex α W), AN p → AN (L.foldl (fun p s => p.addEmpty (.ofList s)) p) := by
        intro L
        induction L with
        | nil => intro p h; exact h
        | cons x t ih => intro p h; exact ih _ (an_empty h _)
      exact this L p h

theorem an_elems {p : MPlex α W} (h : AN p) (ls : List α) (a : Nat) : AN (p.addElems ls a).1 := by
  induction ls generalizing p a with
  | nil => exact h
  | cons l t ih =>
    unfold addElems
    split
    · exact h
    · split
      · exact ih h _
      · exact an_then (an_elem h l a) fun p hp => ih hp _

theorem an_regNode {p : MPlex α W} (h : AN p) (n : α) (L : Option (LKey α)) : AN (p.regNode n L).1 := by
  unfold regNode
  refine an_then (an_slice h 0 n) fun p hp => ?_
  split
  · exact hp
  · split
    · exact hp
    · split <;> split
      · exact an_then (an_elems hp _ _) fun p hp => hp
      · exact hp
      · exact an_then (an_elems hp _ _) fun p hp => hp
      · exact hp

theorem an_childAddNode {p : MPlex α W} (h : AN p) (L : LKey α) (n : α) : AN (p.childAddNode L n).1 := by
  unfold childAddNode
  split
  · exact h
  · rename_i c _
    have h' := an_put h L (c.addNode n none).1
    dsimp only
    split
    · exact an_slice h' 0 n
    · exact an_then (an_regNode h' n _) fun p hp => hp

theorem an_addNode {p : MPlex α W} (h : AN p) (n : α) (L : Option (LKey α)) : AN (p.addNode n L).1 := by
  unfold addNode
  refine an_then (an_regNode h n L) fun p hp => ?_
  split
  · exact hp
  · split
    · exact hp
    · unfold ensureChild
      split
      · exact hp
      · split
        · exact hp
        · exact an_childAddNode hp _ _

theorem an_addLayer {p : MPlex α W} (h : AN p) (l : α) (a : Nat) : AN (p.addLayer l a).1 := by
  unfold addLayer
  split
  · split
    · exact h
    · split
      · exact h
      · exact an_addNode h _ _
  · exact an_elem h l a

theorem an_childSetLink {p : MPlex α W} (h : AN p) (L : LKey α) (l : List α) (v : W) : AN (p.childSetLink L l v).1 := by
  unfold childSetLink
  split
  · exact h
  · exact an_put h _ _

theorem an_childSetItem {p : MPlex α W} (h : AN p) (L : LKey α) (i j : α) (v : W) : AN (p.childSetItem L i j v).1 :=
  an_then (an_then (an_childAddNode h L i) fun _ hp => an_childAddNode hp L j) fun _ hp => an_childSetLink hp L _ v

theorem an_linkLayers {p : MPlex α W} (h : AN p) : ∀ (l : List α) (a : Nat), AN (p.addLinkLayers l a).1
  | x :: y :: t, a => by
    unfold addLinkLayers
    exact an_then (an_then (an_addLayer h x a) fun _ hp => an_addLayer hp y a) fun p hp => an_linkLayers hp t _
  | [], _ => h
  | [_], _ => h

theorem an_setItem {p : MPlex α W} (h : AN p) (i : List α) (v : W) : AN (p.setItem i v).1 := by
  unfold setItem
  dsimp only
  split
  · refine an_then (an_then ?_ fun p hp => an_linkLayers hp _ _) fun p hp => ?_
    · generalize (if i.length = 2 * (p.aspects + 1) then i else shortLinkToLink i) = link
      unfold addLinkNodes
      split
      · split
        · exact an_then (an_addLayer h _ _) fun p hp => an_addLayer hp _ _
        · exact an_then (an_addNode h _ _) fun p hp => an_addNode hp _ _
      · exact h
    · generalize (if i.length = _ then i else shortLinkToLink i) = link
      unfold setLink
      split
      · split
        · exact an_childSetItem hp _ _ _ _
        · exact hp
      · exact hp
  · exact h

theorem an_after (cs : List (Coupling α W)) (directed : Bool) (ne : W) (aligned : Bool) (ops : List (POp α W)) :
    AN (afterP cs directed ne aligned ops) := by
  unfold afterP run
  have : AN (MPlex.init cs directed ne aligned) := List.nodup_nil
  revert this
  generalize MPlex.init cs directed ne aligned = p
  induction ops generalizing p with
  | nil => intro h; exact h
  | cons op t ih =>
    intro h
    refine ih _ ?_
    cases op with
    | addNode n l => exact an_addNode h n l
    | addLayer l a => exact an_addLayer h l a
    | setItem i v => exact an_setItem h i v
    | intraAddNode L n => exact an_childAddNode h L n
    | intraSet L i j v => exact an_childSetItem h L i j v

theorem keyed {c : Coupling α W} {aligned : Bool} {ops : List (POp α W)} {B : Finset α}
    (hB : ∀ x, x ∈ B ↔ ∃ op ∈ ops, Spec.NamesLayerP 1 aligned 1 x op) : Keyed (afterP [c] false 0 aligned ops) B := by
  have hcs : [c] ≠ [] := by simp
  obtain ⟨-, -, s2, -, -⟩ := after_spec hcs false 0 aligned ops
  have hn := an_after [c] false 0 aligned ops
  set p := afterP [c] false 0 aligned ops with hp
  have hk : ∀ L, L ∈ Dict.keys p.A ↔ ∃ l, L = .el l ∧ l ∈ B := by
    intro L
    rw [Dict.mem_keys]
    have h1 : (Dict.get p.A L).isSome = true ↔ (p.child? L).isSome = true := by unfold child?; rw [Option.isSome_map]
    rw [h1, s2]
    simp only [List.length_cons, List.length_nil, Nat.zero_add]
    constructor
    · rintro ⟨s, rfl, hl, hs⟩
      match s, hl with
      | [l], _ => exact ⟨l, rfl, (hB l).2 (hs 0 l rfl)⟩
    · rintro ⟨l, rfl, hl⟩
      refine ⟨[l], rfl, rfl, fun k x hx => ?_⟩
      cases k with
      | zero => simp at hx; subst hx; exact (hB _).1 hl
      | succ k => simp at hx
  refine ⟨(Dict.keys p.A).flatMap LKey.toList, ?_, ?_, ?_⟩
  · have : ∀ L ∈ Dict.keys p.A, ∃ l, L = .el l := fun L hL => by obtain ⟨l, e, -⟩ := (hk L).1 hL; exact ⟨l, e⟩
    revert this
    generalize Dict.keys p.A = ks
    intro this
    induction ks with
    | nil => rfl
    | cons k t ih =>
      obtain ⟨l, rfl⟩ := this _ List.mem_cons_self
      rw [List.flatMap_cons, List.map_append, ← ih fun L hL => this L (List.mem_cons_of_mem _ hL)]
      rfl
  · rw [List.nodup_flatMap]
    constructor
    · intro L hL
      obtain ⟨l, rfl, -⟩ := (hk L).1 hL
      simp [LKey.toList]
    · refine List.Pairwise.imp_of_mem ?_ hn
      intro a b ha hb hne
      obtain ⟨x, rfl, -⟩ := (hk a).1 ha
      obtain ⟨y, rfl, -⟩ := (hk b).1 hb
      simp only [Function.onFun, LKey.toList, List.disjoint_singleton]
      intro e; exact hne (by simp at e; rw [e])
  · intro x
    rw [List.mem_flatMap]
    constructor
    · rintro ⟨L, hL, hx⟩
      obtain ⟨l, rfl, hl⟩ := (hk L).1 hL
      simp [LKey.toList] at hx; rw [hx]; exact hl
    · intro hx
      exact ⟨.el x, (hk _).2 ⟨x, rfl, hx⟩, by simp [LKey.toList]⟩

end keys

end Pymnet

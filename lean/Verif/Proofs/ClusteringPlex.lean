import Verif.Proofs.Barrett
import Verif.Props.TransformsPlex

/-! Clustering coefficients of multiplex networks with one aspect. -/

set_option linter.unusedSectionVars false
set_option linter.unusedSimpArgs false

namespace Pymnet

open Py MPlex

/-- What the clustering coefficients use of a multiplex network with one aspect: nodes, layers, nodes of each
layer, link weights. -/
structure PlexL {α W : Type} [DecidableEq α] [IntNames α] [DecidableEq W] [Zero W] (p : MPlex α W) (N B : Finset α)
    (M : α → Finset α) (A : α → α → α → W) : Prop where
  lay : Lay p.view N B A
  asp : p.aspects = 1
  ne : p.noEdge = 0
  kids : ∀ l ∈ B, ∃ c, p.child? (.el l) = some c ∧ Mono c.view (M l) (fun i j => A i j l) ∧ c.noEdge = 0
  sub : ∀ l ∈ B, M l ⊆ N
  self : ∀ i l, A i i l = 0
  sym : ∀ i j l, A i j l = A j i l
  on : ∀ i j, ∀ l ∈ B, A i j l ≠ 0 → j ∈ M l
  opt : ∀ h, (∃ l ∈ B, h ∈ M l) → ∃ C : Finset α, C ⊆ B ∧ (∀ l ∈ B, h ∈ M l → l ∈ C) ∧
    ∃ ls, (if p.fic then p.view.layers1
      else match Dict.get p.nodeToLayers h with
      | none => .error .keyError
      | some ls => pure (ls.flatMap LKey.toList)) = .ok ls ∧ ls.Nodup ∧ ∀ x, x ∈ ls ↔ x ∈ C

theorem plexL {α W : Type} [DecidableEq α] [DecidableEq W] [Zero W] [LawfulIntNames α] {c : Coupling α W} {aligned : Bool}
    {ops : List (POp α W)} (hs : Spec.NoIntraSelf ops) {N B : Finset α} {M : α → Finset α}
    (hN : ∀ x, x ∈ N ↔ Spec.Happened (Spec.NamesNodeP 1 aligned x) ops)
    (hB : ∀ x, x ∈ B ↔ ∃ op ∈ ops, Spec.NamesLayerP 1 aligned 1 x op)
    (hM : ∀ l ∈ B, ∀ x, x ∈ M l ↔ Spec.HasNodeLayer 1 aligned ops [x, l]) :
    PlexL (afterP [c] false 0 aligned ops) N B M fun i j l => Spec.readP 1 false aligned ops [l] i j := by
  have hcs : [c] ≠ [] := by simp
  have hpar := after_params hcs false 0 aligned ops
  have hp := after_pinv hcs false 0 aligned ops
  obtain ⟨s0, s1, s2, s3, s4⟩ := after_spec hcs false 0 aligned ops
  have hns := after_noself hcs false 0 aligned ops hs
  set p := afterP [c] false 0 aligned ops with hpd
  simp only [List.length_cons, List.length_nil, Nat.zero_add] at hpar s0 s1 s2 s3 s4
  have hne : p.noEdge = 0 := hpar.2.2.1
  have hslen := hp.core.slen
  rw [hpar.1] at hslen
  obtain ⟨n0, l0, hsl⟩ : ∃ n0 l0, p.slices = [n0, l0] := by
    match p.slices, hslen with
    | [a, b], _ => exact ⟨a, b, rfl⟩
  have hs0 : ∀ x, p.inSlice 0 x ↔ x ∈ n0 := by intro x; simp [inSlice, hsl]
  have hs1 : ∀ x, p.inSlice 1 x ↔ x ∈ l0 := by intro x; simp [inSlice, hsl]
  have hLay : ∀ l, l ∈ B ↔ Spec.HasLayer 1 aligned ops (.ofList [l]) := by
    intro l
    rw [hB]
    constructor
    · intro h
      refine ⟨[l], rfl, rfl, fun k x hx => ?_⟩
      cases k with
      | zero => simp at hx; subst hx; exact h
      | succ k => simp at hx
    · rintro ⟨s, e, -, h⟩
      cases ofList_inj' e
      exact h 0 l rfl
  have hread : ∀ {l cc}, p.child? (.el l) = some cc → ∀ i j, cc.reads [i] [j] = Spec.readP 1 false aligned ops [l] i j := by
    intro l cc hc i j
    rw [lkA_reads hp.core hc]
    exact s4 [l] i j rfl
  have hself : ∀ i l, Spec.readP 1 false aligned ops [l] i i = 0 := by
    intro i l
    rw [← s4 [l] i i rfl, hns]; rfl
  have hkid : ∀ l ∈ B, ∀ x, x ∈ M l ↔ p.kid (.el l) x := by
    intro l hl x
    rw [hM l hl]
    cases hal : aligned with
    | true =>
      rw [fic_kid (by rw [hpar.2.2.2.1, hal])]
      have hk : (p.child? (.el l)).isSome = true := (s2 _).2 ((hLay l).1 hl)
      simp only [hk, true_and]
      rw [show p.slices.headD [] = n0 by rw [hsl]; rfl, ← hs0, s0, hal]
      constructor
      · rintro ⟨n, s, e, -, h | h⟩
        · cases e; exact h.2.1
        · exact absurd h.1 (by simp)
      · intro h
        have hl' := (hLay l).1 hl
        rw [hal] at hl'
        exact ⟨x, [l], rfl, rfl, Or.inl ⟨rfl, h, hl'⟩⟩
    | false =>
      refine Iff.trans ?_ (s3 hal [l] x rfl).symm
      constructor
      · rintro ⟨n, s, e, -, h | h⟩
        · exact absurd h.1 (by simp)
        · cases e; exact h.2
      · intro h
        exact ⟨x, [l], rfl, rfl, Or.inr ⟨rfl, h⟩⟩
  have hchild : ∀ l ∈ B, ∃ cc, p.child? (.el l) = some cc := fun l hl =>
    Option.isSome_iff_exists.1 ((s2 _).2 ((hLay l).1 hl))
  have hon : ∀ i j, ∀ l ∈ B, Spec.readP 1 false aligned ops [l] i j ≠ 0 → j ∈ M l := by
    intro i j l hl hr
    obtain ⟨cc, hc⟩ := hchild l hl
    have hk := hp.core.kids _ _ hc
    rw [← hread hc, ← hk.ne, MNet.reads_ne_noEdge hk.inv.l] at hr
    obtain ⟨w, hw⟩ := Option.isSome_iff_exists.1 hr
    have := (hk.inv.reg _ _ w hw).2.2 0 j rfl
    unfold MNet.inSlice at this
    rw [MNet.slices_split hk.inv.r] at this
    rw [hkid l hl]
    exact ⟨cc, hc, by simpa using this⟩
  have hlayers : p.view.layers1 = .ok l0 := by
    unfold View.layers1
    change (match p.slices[1]? with | none => _ | some l => _) = _
    rw [hsl]; rfl
  have hl0 : l0.Nodup := hp.core.snodup l0 (by simp [hsl])
  have hl0m : ∀ x, x ∈ l0 ↔ x ∈ B := by
    intro x; rw [← hs1, s1 1 x (le_refl _), hB]
  refine ⟨⟨hpar.1, ?_, ?_, ⟨l0, hlayers, hl0, hl0m⟩, ?_⟩, hpar.1, hne, ?_, ?_, hself, ?_, hon, ?_⟩
  · change (p.slices.headD []).Nodup
    rw [hsl]
    exact hp.core.snodup n0 (by simp [hsl])
  · intro x
    change x ∈ p.slices.headD [] ↔ _
    rw [hsl, hN, ← s0, hs0]; rfl
  · intro i j l hl
    have hL := (hLay l).1 hl
    refine View.num_eq (v := p.view) (a := [i, l]) (b := [j, l]) ?_ ?_
    · refine ⟨?_, ?_, Or.inr ⟨i, j, [l], rfl, rfl, rfl⟩⟩
      · rw [show p.view.aspects = 1 from hpar.1]; rfl
      · rw [show p.view.aspects = 1 from hpar.1]; rfl
    · by_cases hij : i = j
      · subst hij
        rw [hself]
        refine (getLink_self (p := p) [i, l]).trans ?_
        rw [hne]
      · exact after_intra hcs false 0 aligned ops (i := i) (j := j) (s := [l]) hij hL
  · intro l hl
    obtain ⟨cc, hc⟩ := hchild l hl
    have hk := hp.core.kids _ _ hc
    refine ⟨cc, hc, ?_, hk.ne⟩
    have e : (fun i j => Spec.readP 1 false aligned ops [l] i j) = fun i j => cc.reads [i] [j] := by
      funext i j; rw [hread hc]
    rw [e]
    refine hk.inv.mono hk.asp (by rw [hk.dir, hpar.2.1]) fun x => ?_
    rw [hkid l hl]
    constructor
    · rintro ⟨c', h1, h2⟩
      rw [hc] at h1; cases h1; exact h2
    · intro h; exact ⟨cc, hc, h⟩
  · intro l hl x hx
    rw [hkid l hl] at hx
    rw [hN, ← s0]
    exact hp.core.ksub _ _ hx
  · intro i j l
    have e : ∀ a b, Spec.readP 1 false aligned ops [l] a b = (p.lkA (.ofList [l]) [a] [b]).getD 0 := fun a b =>
      (s4 [l] a b rfl).symm
    rw [e, e]
    unfold lkA
    cases hc : p.child? (.ofList [l]) with
    | none => rfl
    | some cc =>
      have hk := hp.core.kids _ _ hc
      simp only [Option.bind_some]
      rw [hk.inv.l.sym (by rw [hk.dir, hpar.2.1]) [i] [j]]
  · rintro h ⟨l, hl, hh⟩
    by_cases hf : p.fic = true
    · rw [if_pos hf]
      exact ⟨B, Finset.Subset.refl _, fun l hl _ => hl, l0, hlayers, hl0, hl0m⟩
    · rw [if_neg hf]
      have hf' : p.fic = false := by simpa using hf
      have hreg : ∀ l ∈ B, h ∈ M l → p.reg h (.el l) := by
        intro l hl hm
        rw [← hp.regs hf' (.el l) h ((s2 _).2 ((hLay l).1 hl)), ← hkid l hl]
        exact hm
      have hr := hreg l hl hh
      unfold reg at hr
      cases hg : Dict.get p.nodeToLayers h with
      | none => rw [hg] at hr; simp at hr
      | some ks =>
        have hks : ∀ L, L ∈ ks ↔ p.reg h L := by intro L; simp [reg, hg]
        have hel : ∀ L ∈ ks, ∃ x, L = .el x ∧ x ∈ B := by
          intro L hL
          obtain ⟨-, h2⟩ := hp.rkey h L ((hks L).1 hL)
          rcases h2 with h2 | h2
          · have := (s2 L).1 h2
            obtain ⟨s, e1, e2, e3⟩ := this
            match s, e2 with
            | [x], _ => exact ⟨x, e1, (hB x).2 (e3 0 x rfl)⟩
          · have := h2.1; rw [hpar.1] at this; omega
        have hnd : ks.Nodup := by
          have := hp.core.rnodup h
          rwa [hg] at this
        have hmem : ∀ x, x ∈ ks.flatMap LKey.toList ↔ LKey.el x ∈ ks := by
          intro x
          rw [List.mem_flatMap]
          constructor
          · rintro ⟨L, hL, hx⟩
            obtain ⟨y, rfl, -⟩ := hel L hL
            simp [LKey.toList] at hx
            subst hx; exact hL
          · intro hL; exact ⟨_, hL, by simp [LKey.toList]⟩
        refine ⟨(ks.flatMap LKey.toList).toFinset, ?_, ?_, ks.flatMap LKey.toList, rfl, ?_, fun x => by simp⟩
        · intro x hx
          rw [List.mem_toFinset, hmem] at hx
          obtain ⟨y, e, hy⟩ := hel _ hx
          cases e; exact hy
        · intro l' hl' hm
          rw [List.mem_toFinset, hmem, hks]
          exact hreg l' hl' hm
        · rw [List.nodup_flatMap]
          constructor
          · intro L hL
            obtain ⟨y, rfl, -⟩ := hel L hL
            simp [LKey.toList]
          · refine List.Pairwise.imp_of_mem ?_ hnd
            intro a b ha hb hne'
            obtain ⟨x, rfl, -⟩ := hel a ha
            obtain ⟨y, rfl, -⟩ := hel b hb
            simp only [Function.onFun, LKey.toList]
            intro z h1 h2
            simp at h1 h2
            exact hne' (by rw [← h1, ← h2])

end Pymnet

import Verif.Proofs.Conf
import Verif.Proofs.ErLayers
import Verif.Spec.Conf

/-! From the pairs of stubs to the degrees. -/

set_option linter.unusedSectionVars false

namespace Pymnet

open Py Models

variable {α W σ τ : Type} [DecidableEq α] [DecidableEq W] [LinearOrder α] [Zero W] [One W]

theorem cnt_eq_count (q : α × α) (l : List (α × α)) : cnt q l = (l.map key).count q := by
  induction l with
  | nil => rfl
  | cons p l ih =>
    simp only [cnt, wsum, List.map_cons, List.sum_cons, List.count_cons] at *
    rw [ih]
    by_cases h : key p = q <;> simp [h]; omega

theorem key_ends {p : α × α} {a b : α} : key p = srt a b ↔ (p.1 = a ∧ p.2 = b) ∨ (p.1 = b ∧ p.2 = a) := srt_eq_iff

/-- the other end -/
def other (a : α) (p : α × α) : α := if p.1 = a then p.2 else p.1

theorem Simple.neighbours {stubs : List α} {pairs : List (α × α)} {lk : α × α → Prop} (h : Simple stubs pairs lk) (a : α) :
    ∃ L : List α, L.Nodup ∧ (∀ b, b ∈ L ↔ lk (srt a b)) ∧ L.length = stubs.count a := by
  have hn : (pairs.map key).Nodup := List.nodup_iff_count_le_one.2 fun q => by rw [← cnt_eq_count]; exact h.one q
  refine ⟨(pairs.filter fun p => p.1 = a ∨ p.2 = a).map (other a), ?_, fun b => ?_, ?_⟩
  · refine List.Nodup.map_on ?_ ?_
    · intro p hp q hq e
      simp only [List.mem_filter, decide_eq_true_eq] at hp hq
      have hkp : key p = srt a (other a p) := by
        rw [key_ends]; unfold other; split
        · rename_i h1; exact .inl ⟨h1, rfl⟩
        · rename_i h1; exact .inr ⟨rfl, hp.2.resolve_left h1⟩
      have hkq : key q = srt a (other a q) := by
        rw [key_ends]; unfold other; split
        · rename_i h1; exact .inl ⟨h1, rfl⟩
        · rename_i h1; exact .inr ⟨rfl, hq.2.resolve_left h1⟩
      exact List.inj_on_of_nodup_map hn hp.1 hq.1 (by rw [hkp, hkq, e])
    · exact (List.Nodup.of_map _ hn).filter _
  · rw [h.lk, cnt_pos]
    simp only [List.mem_map, List.mem_filter, decide_eq_true_eq]
    constructor
    · rintro ⟨p, ⟨hp, ha⟩, rfl⟩
      refine ⟨p, hp, ?_⟩
      rw [key_ends]; unfold other; split
      · rename_i h1; exact .inl ⟨h1, rfl⟩
      · rename_i h1; exact .inr ⟨rfl, ha.resolve_left h1⟩
    · rintro ⟨p, hp, hk⟩
      have hd := h.diag p hp
      rcases key_ends.1 hk with ⟨h1, h2⟩ | ⟨h1, h2⟩
      · exact ⟨p, ⟨hp, .inl h1⟩, by rw [other, if_pos h1, h2]⟩
      · refine ⟨p, ⟨hp, .inr h2⟩, ?_⟩
        rw [other, if_neg (fun e => hd (e.trans h2.symm)), h1]
  · rw [List.length_map, ← h.deg a]
    have hdg := h.diag
    clear hn h
    induction pairs with
    | nil => rfl
    | cons p l ih =>
      have hd := hdg p (by simp)
      have := ih (fun q hq => hdg q (by simp [hq]))
      rw [List.filter_cons]
      simp only [wsum, List.map_cons, List.sum_cons] at *
      rw [← this]
      by_cases h1 : p.1 = a
      · have h2 : ¬ p.2 = a := fun e => hd (h1.trans e.symm)
        simp [endsAt, h1, h2]; omega
      · by_cases h2 : p.2 = a <;> simp [endsAt, h1, h2]; omega

/-- the stubs of a list of nodes and degrees -/
def stubsOf (dd : List (α × Nat)) : List α := dd.flatMap fun x => List.replicate x.2 x.1

/-- the nodes of degree 0 -/
def zerosOf (dd : List (α × Nat)) : List α := (dd.filter fun x => x.2 = 0).map Prod.fst

theorem count_stubsOf {dd : List (α × Nat)} (hn : (dd.map Prod.fst).Nodup) (a : α) :
    (stubsOf dd).count a = (Dict.get (dd : Dict α Nat) a).getD 0 := by
  induction dd with
  | nil => rfl
  | cons x t ih =>
    obtain ⟨k, v⟩ := x
    simp only [List.map_cons, List.nodup_cons] at hn
    have e : stubsOf ((k, v) :: t) = List.replicate v k ++ stubsOf t := rfl
    rw [e, List.count_append, ih hn.2, List.count_replicate, Dict.get_cons]
    by_cases h : k = a
    · subst h
      have : Dict.get (t : Dict α Nat) k = none := Dict.get_eq_none.2 hn.1
      simp [this]
    · simp [h]

theorem length_stubsOf (dd : List (α × Nat)) : (stubsOf dd).length = (dd.map Prod.snd).sum := by
  simp [stubsOf, List.length_flatMap]

theorem mem_stubs_zeros {dd : List (α × Nat)} {a : α} : a ∈ stubsOf dd ∨ a ∈ zerosOf dd ↔ a ∈ dd.map Prod.fst := by
  simp only [stubsOf, zerosOf, List.mem_flatMap, List.mem_replicate, List.mem_map, List.mem_filter, decide_eq_true_eq]
  constructor
  · rintro (⟨x, hx, -, rfl⟩ | ⟨x, ⟨hx, -⟩, rfl⟩)
    · exact ⟨x, hx, rfl⟩
    · exact ⟨x, hx, rfl⟩
  · rintro ⟨x, hx, rfl⟩
    by_cases h : x.2 = 0
    · exact .inr ⟨x, ⟨hx, h⟩, rfl⟩
    · exact .inl ⟨x, hx, h, rfl⟩

section
variable {T : Target σ α W} {P : σ → (α → Prop) → (α → α → W) → Prop}

/-- the end of the call, for a list of nodes and degrees -/
theorem confStubs_degs [NeZero (1 : W)] (F : Fills T P) {s : σ} {dd : List (α × Nat)} (hn : (dd.map Prod.fst).Nodup)
    (h : P s (· ∈ zerosOf dd) (fun _ _ => 0)) {nstubs : Nat} (hs : (dd.map Prod.snd).sum = nstubs) (nodes : Nat)
    (rnd : ConfRandom α) :
    Ends (fun e => (e = .assertionError ∧ (nstubs % 2 ≠ 0 ∨ nodes * (nodes - 1) < nstubs)) ∨
        (e = .valueError ∧ nstubs = 2))
      (confStubs T nstubs nodes (stubsOf dd) rnd s) (fun net => ∃ R, P net (· ∈ dd.map Prod.fst) R ∧
        Spec.HasDegrees R fun x => (Dict.get (dd : Dict α Nat) x).getD 0) := by
  refine (confStubs_ends F (zeros := zerosOf dd) ⟨_, _, h, ⟨fun _ _ h => h.elim, fun _ _ _ => rfl⟩, fun _ _ h => h.elim,
    fun a ha => .inr ha, fun a ha => ha⟩ ((length_stubsOf dd).trans hs) rnd).mono ?_
  rintro net ⟨lk, pairs, ⟨S, R, h1, h2, h3, h4, h5⟩, hsim⟩
  have hlk : ∀ a b, R a b = 1 ↔ lk (srt a b) := fun a b => by
    by_cases hl : lk (srt a b)
    · simp [h2.1 a b hl, hl]
    · simp only [h2.2 a b hl, hl, iff_false]; exact fun e => one_ne_zero e.symm
  refine ⟨R, F.congr h1 (fun a => ?_) (fun _ _ => rfl), fun a b => ?_, fun a b => ?_, fun a => ?_, fun a => ?_⟩
  · rw [← mem_stubs_zeros]
    constructor
    · exact h4 a
    · rintro (ha | ha)
      · obtain ⟨L, -, l2, l3⟩ := hsim.neighbours a
        have hL : L ≠ [] := by
          rintro rfl
          rw [← List.count_pos_iff, ← l3] at ha
          simp at ha
        obtain ⟨b, hb⟩ := List.exists_mem_of_ne_nil _ hL
        exact h3 a b ((l2 b).1 hb)
      · exact h5 a ha
  · by_cases hl : lk (srt a b)
    · exact .inr (h2.1 a b hl)
    · exact .inl (h2.2 a b hl)
  · by_cases hl : lk (srt a b)
    · rw [h2.1 a b hl, h2.1 b a (by rw [srt_comm]; exact hl)]
    · rw [h2.2 a b hl, h2.2 b a (by rw [srt_comm]; exact hl)]
  · refine h2.2 a a fun hl => ?_
    rw [hsim.lk, cnt_pos] at hl
    obtain ⟨p, hp, hk⟩ := hl
    refine hsim.diag p hp ?_
    rcases key_ends.1 hk with ⟨e1, e2⟩ | ⟨e1, e2⟩ <;> rw [e1, e2]
  · obtain ⟨L, l1, l2, l3⟩ := hsim.neighbours a
    exact ⟨L, l1, fun b => (l2 b).trans (hlk a b).symm, l3.trans (count_stubsOf hn a)⟩

theorem stubsOf_append (a b : List (α × Nat)) : stubsOf (a ++ b) = stubsOf a ++ stubsOf b := by simp [stubsOf]

theorem zerosOf_append (a b : List (α × Nat)) : zerosOf (a ++ b) = zerosOf a ++ zerosOf b := by simp [zerosOf]

theorem stubsNodes_ok (F : Fills T P) {s : σ} (h : P s (fun _ => False) (fun _ _ => 0)) (d : Dict α Nat) :
    ∃ s', stubsNodes T d s = .ok (s', stubsOf d) ∧ P s' (· ∈ zerosOf d) (fun _ _ => 0) := by
  unfold stubsNodes
  obtain ⟨st, h1, h2, h3⟩ := forE_ok (P := fun pre st => st.2 = stubsOf pre ∧ P st.1 (· ∈ zerosOf pre) (fun _ _ => 0)) d
    (s := (s, ([] : List α))) ⟨rfl, F.congr h (by simp [zerosOf]) (fun _ _ => rfl)⟩
    (f := fun st x =>
      if x.2 = 0 then
        match T.addNode st.1 x.1 with
        | .error e => .error e
        | .ok s => .ok (s, st.2 ++ List.replicate x.2 x.1)
      else .ok (st.1, st.2 ++ List.replicate x.2 x.1)) (by
    rintro pre ⟨x, k⟩ post ⟨s1, st1⟩ - ⟨h2, h3⟩
    simp only at h2 h3
    have hst : st1 ++ List.replicate k x = stubsOf (pre ++ [(x, k)]) := by
      rw [stubsOf_append, h2]; simp [stubsOf]
    by_cases hk : k = 0
    · obtain ⟨s2, e1, e2⟩ := F.addNode h3 x
      simp only [hk, if_true, e1]
      refine ⟨_, rfl, by rw [← hk]; exact hst, F.congr e2 (fun y => ?_) (fun _ _ => rfl)⟩
      rw [zerosOf_append]; simp [zerosOf]
    · simp only [hk, if_false]
      refine ⟨_, rfl, hst, F.congr h3 (fun y => ?_) (fun _ _ => rfl)⟩
      rw [zerosOf_append]; simp [zerosOf, hk])
  refine ⟨st.1, ?_, h3⟩
  rw [← h2]
  exact h1

/-- what the branch for distributions has done for the first degrees -/
def DistInv (P : σ → (α → Prop) → (α → α → W) → Prop) (ix : Nat → α) (indices : List Nat) (D : List Nat)
    (st : (σ × List α) × Nat) : Prop :=
  ∃ dd : List (α × Nat), dd.map Prod.snd = D ∧ dd.map Prod.fst = (indices.take D.length).map ix ∧ st.2 = D.length ∧
    st.1.2 = stubsOf dd ∧ P st.1.1 (· ∈ zerosOf dd) (fun _ _ => 0)

/-- the list of the degrees of a distribution -/
def degList (d : Dict Nat Nat) : List Nat := d.flatMap fun x => List.replicate x.2 x.1

theorem stubsDist_ok (F : Fills T P) {ix : Nat → α} {s : σ} (h : P s (fun _ => False) (fun _ _ => 0)) (d : Dict Nat Nat)
    {indices : List Nat} (hi : indices.length = (d.map Prod.snd).sum) :
    ∃ st, stubsDist T ix indices d s = .ok st ∧ DistInv P ix indices (degList d) st := by
  have hlen : ∀ pre : Dict Nat Nat, (degList pre).length = (pre.map Prod.snd).sum := fun pre => by
    simp [degList, List.length_flatMap]
  unfold stubsDist
  refine forE_ok (P := fun pre st => DistInv P ix indices (degList pre) st) d
    ⟨[], rfl, by simp [degList], rfl, rfl, F.congr h (by simp [zerosOf]) (fun _ _ => rfl)⟩ ?_
  rintro pre ⟨k, num⟩ post st hl hst
  have hle : (degList pre).length + num ≤ indices.length := by
    rw [hi, hlen, hl]; simp
  have hfin : degList (pre ++ [(k, num)]) = degList pre ++ List.replicate num k := by simp [degList]
  -- one node of degree k
  have step : ∀ (n : Nat), n < num → ∀ st : (σ × List α) × Nat, DistInv P ix indices (degList pre ++ List.replicate n k) st →
      ∃ i, indices[st.2]? = some i ∧
        (k = 0 → ∃ s', T.addNode st.1.1 (ix i) = .ok s' ∧
          DistInv P ix indices (degList pre ++ List.replicate (n + 1) k) ((s', st.1.2), st.2 + 1)) ∧
        (k ≠ 0 → DistInv P ix indices (degList pre ++ List.replicate (n + 1) k)
          ((st.1.1, st.1.2 ++ List.replicate k (ix i)), st.2 + 1)) := by
    rintro n hn ⟨⟨s1, stubs1⟩, c⟩ ⟨dd, d1, d2, d3, d4, d5⟩
    simp only at d3 d4 d5
    have hc : c = (degList pre).length + n := by rw [d3]; simp
    have hlt : c < indices.length := by omega
    have htake : (indices.take (degList pre ++ List.replicate (n + 1) k).length).map ix =
        (indices.take (degList pre ++ List.replicate n k).length).map ix ++ [ix indices[c]] := by
      have e1 : (degList pre ++ List.replicate (n + 1) k).length = c + 1 := by simp [hc]; omega
      have e2 : (degList pre ++ List.replicate n k).length = c := by simp [hc]
      rw [e1, e2, List.take_add_one, List.getElem?_eq_getElem hlt, List.map_append]
      rfl
    have hD : (dd ++ [(ix indices[c], k)]).map Prod.snd = degList pre ++ List.replicate (n + 1) k := by
      rw [List.map_append, d1, List.replicate_succ']; simp
    refine ⟨indices[c], List.getElem?_eq_getElem hlt, fun hk => ?_, fun hk => ?_⟩
    · obtain ⟨s2, e1, e2⟩ := F.addNode d5 (ix indices[c])
      refine ⟨s2, e1, dd ++ [(ix indices[c], k)], hD, ?_, by simp [d3]; omega, ?_, F.congr e2 (fun y => ?_) (fun _ _ => rfl)⟩
      · rw [htake, List.map_append, d2]; rfl
      · rw [stubsOf_append]; simp [stubsOf, hk, d4]
      · rw [zerosOf_append]; simp [zerosOf, hk]
    · refine ⟨dd ++ [(ix indices[c], k)], hD, ?_, by simp [d3]; omega, ?_, F.congr d5 (fun y => ?_) (fun _ _ => rfl)⟩
      · rw [htake, List.map_append, d2]; rfl
      · rw [stubsOf_append]; simp [stubsOf, d4]
      · rw [zerosOf_append]; simp [zerosOf, hk]
  by_cases hk : k = 0
  · simp only [if_pos hk]
    obtain ⟨st', e1, e2⟩ := forE_ok (P := fun pre2 st => DistInv P ix indices (degList pre ++ List.replicate pre2.length k) st)
      (List.range num) (s := st) (by simpa using hst)
      (f := fun st (_ : Nat) =>
        match indices[st.2]? with
        | none => .error .indexError
        | some i =>
          match T.addNode st.1.1 (ix i) with
          | .error e => .error e
          | .ok s => .ok ((s, st.1.2), st.2 + 1)) (by
      rintro pre2 b post2 st2 hl2 h2
      have : pre2.length < num := by
        have := congrArg List.length hl2
        simp at this; omega
      obtain ⟨i, i1, i2, -⟩ := step _ this st2 h2
      obtain ⟨s', i3, i4⟩ := i2 hk
      simp only [i1, i3]
      exact ⟨_, rfl, by simpa using i4⟩)
    refine ⟨st', e1, ?_⟩
    simp only [List.length_range] at e2
    rw [hfin]; exact e2
  · simp only [if_neg hk]
    obtain ⟨st', e1, e2⟩ := forE_ok (P := fun pre2 st => DistInv P ix indices (degList pre ++ List.replicate pre2.length k) st)
      (List.range num) (s := st) (by simpa using hst)
      (f := fun st (_ : Nat) =>
        match indices[st.2]? with
        | none => .error .indexError
        | some i => .ok ((st.1.1, st.1.2 ++ List.replicate k (ix i)), st.2 + 1)) (by
      rintro pre2 b post2 st2 hl2 h2
      have : pre2.length < num := by
        have := congrArg List.length hl2
        simp at this; omega
      obtain ⟨i, i1, -, i2⟩ := step _ this st2 h2
      simp only [i1]
      exact ⟨_, rfl, by simpa using i2 hk⟩)
    refine ⟨st', e1, ?_⟩
    simp only [List.length_range] at e2
    rw [hfin]; exact e2

theorem count_degList {d : Dict Nat Nat} (hn : (d.map Prod.fst).Nodup) (k : Nat) :
    (degList d).count k = (Dict.get d k).getD 0 := by
  have := count_stubsOf (dd := d) hn k
  exact this

theorem sum_degList (d : Dict Nat Nat) : (degList d).sum = (d.map fun x => x.1 * x.2).sum := by
  induction d with
  | nil => rfl
  | cons x t ih =>
    have : degList (x :: t) = List.replicate x.2 x.1 ++ degList t := rfl
    rw [this, List.sum_append, ih]
    simp [Nat.mul_comm]

/-- `single_layer_conf` -/
theorem singleLayerConf_ends [NeZero (1 : W)] (F : Fills T P) {ix : Nat → α} (hix : Function.Injective ix) {s : σ}
    (h : P s (fun _ => False) (fun _ _ => 0)) {degs : Degs α} (hk : Spec.DistinctKeys degs) (rnd : ConfRandom α) :
    Ends (fun e => (e = .assertionError ∧ (Spec.degreeSum degs % 2 ≠ 0 ∨
          Spec.nodeCount degs * (Spec.nodeCount degs - 1) < Spec.degreeSum degs)) ∨
        (e = .valueError ∧ Spec.degreeSum degs = 2))
      (singleLayerConf T ix degs rnd s) (fun net => ∃ R, P net (Spec.nodesOf ix degs) R ∧ Spec.Fulfils ix degs R) := by
  cases degs with
  | nodes d =>
    obtain ⟨s1, e1, h1⟩ := stubsNodes_ok F h d
    simp only [singleLayerConf, e1]
    exact confStubs_degs F hk h1 rfl d.length rnd
  | dist d =>
    simp only [singleLayerConf]
    split
    · trivial
    rename_i hperm
    simp only [not_not] at hperm
    have hlen : rnd.nodeShuffle.length = (d.map Prod.snd).sum := by rw [hperm.length_eq]; simp
    obtain ⟨st, e1, dd, d1, d2, d3, d4, d5⟩ := stubsDist_ok F (ix := ix) h d hlen
    simp only [e1]
    have hDl : (degList d).length = (d.map Prod.snd).sum := by simp [degList, List.length_flatMap]
    have hnames : dd.map Prod.fst = rnd.nodeShuffle.map ix := by rw [d2, hDl, ← hlen, List.take_length]
    have hnd : (dd.map Prod.fst).Nodup := by
      rw [hnames]
      exact (hperm.nodup_iff.2 List.nodup_range).map hix
    rw [d4]
    have hsum : (dd.map Prod.snd).sum = (d.map fun x => x.1 * x.2).sum := by rw [d1, sum_degList]
    refine (confStubs_degs F hnd d5 hsum _ rnd).mono ?_
    rintro net ⟨R, h1, h2⟩
    have hmem : ∀ x, x ∈ dd.map Prod.fst ↔ Spec.nodesOf ix (.dist d) x := by
      intro x
      rw [hnames]
      simp only [List.mem_map, hperm.mem_iff, List.mem_range, Spec.nodesOf]
      exact ⟨fun ⟨i, hi, e⟩ => ⟨i, hi, e.symm⟩, fun ⟨i, hi, e⟩ => ⟨i, hi, e.symm⟩⟩
    refine ⟨R, F.congr h1 hmem (fun _ _ => rfl), _, h2, fun x hx => ?_, fun k => ?_⟩
    · have : Dict.get (dd : Dict α Nat) x = none := Dict.get_eq_none.2 fun e => hx ((hmem x).1 e)
      simp [this]
    · rw [← count_degList hk, ← d1]
      -- nodes of degree k, counted in the order of the shuffled list
      have p1 : ((List.range (d.map Prod.snd).sum).filter fun i =>
          decide ((Dict.get (dd : Dict α Nat) (ix i)).getD 0 = k)).length =
          (rnd.nodeShuffle.filter fun i => decide ((Dict.get (dd : Dict α Nat) (ix i)).getD 0 = k)).length :=
        (hperm.symm.filter _).length_eq
      rw [p1]
      have p2 : (rnd.nodeShuffle.filter fun i => decide ((Dict.get (dd : Dict α Nat) (ix i)).getD 0 = k)).length =
          ((dd.map Prod.fst).filter fun x => decide ((Dict.get (dd : Dict α Nat) x).getD 0 = k)).length := by
        rw [hnames, List.filter_map, List.length_map]; rfl
      rw [p2, List.filter_map, List.length_map, List.count, List.countP_map, List.countP_eq_length_filter]
      congr 1
      refine List.filter_congr fun x hx => ?_
      have : Dict.get (dd : Dict α Nat) x.1 = some x.2 := Dict.get_of_mem hnd (by simpa using hx)
      simp only [Function.comp_apply, this, Option.getD_some]
      by_cases e : x.2 = k <;> simp [e]

end

end Pymnet

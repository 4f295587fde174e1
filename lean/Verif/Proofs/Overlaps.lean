import Verif.Proofs.Ba

/-! `er_overlaps_match_aggregated`. -/

set_option linter.unusedSectionVars false

namespace Pymnet

open Py Models

variable {α W : Type} [DecidableEq α] [DecidableEq W] [Zero W] [One W]

open Classical in
/-- the network that has the pairs of `A` as links on their layers -/
def OvNet (ix : Nat → α) (c : Coupling α W) (p : MPlex α W) (A : List ((Nat × Nat) × List α)) : Prop :=
  BuiltP p c true (fun x => ∃ e ∈ A, e.2 ≠ [] ∧ (x = ix e.1.1 ∨ x = ix e.1.2)) (fun s => ∃ e ∈ A, s ∈ e.2) (fun _ _ => False)
    (fun s a b => if ∃ e ∈ A, s ∈ e.2 ∧ ((a = ix e.1.1 ∧ b = ix e.1.2) ∨ (a = ix e.1.2 ∧ b = ix e.1.1)) then 1 else 0)

structure OvInv (ix : Nat → α) (n : Nat) (c : Coupling α W) (p : MPlex α W) (used : List (Int × Int))
    (A : List ((Nat × Nat) × List α)) : Prop where
  net : OvNet ix c p A
  nodup : (A.map Prod.fst).Nodup
  lt : ∀ e ∈ A, e.1.1 < e.1.2 ∧ e.1.2 < n
  used : ∀ q : Nat × Nat, ((q.1 : Int), (q.2 : Int)) ∈ used ↔ q ∈ A.map Prod.fst

theorem OvNet.add {ix : Nat → α} (hix : Function.Injective ix) {c : Coupling α W} {p : MPlex α W}
    {A : List ((Nat × Nat) × List α)} (h : OvNet ix c p A) {w v : Nat} (hwv : w < v) (layers : List α) :
    ∃ p', forE (fun (net : MPlex α W) l => (net.setItem [ix w, ix v, l] 1).toExcept) layers p = .ok p' ∧
      OvNet ix c p' (A ++ [((w, v), layers)]) := by
  obtain ⟨p', h1, h2⟩ := BuiltP.writes h layers (fun _ => True) (fun _ => ix w) (fun _ => ix v) (fun l => l)
    (fun j hj _ e => by have := hix e; omega)
    (g := fun net l => (net.setItem [ix w, ix v, l] 1).toExcept)
    (fun m j _ _ => ⟨_, addresses_one, rfl⟩) (fun m j _ hq => absurd trivial hq)
  refine ⟨p', h1, BuiltP.congr h2.anyNL ?_ ?_ (fun _ _ => Iff.rfl) ?_⟩
  · intro x
    simp only [List.mem_append, List.mem_singleton, or_and_right, exists_or, exists_eq_left, true_and]
    refine or_congr Iff.rfl ⟨?_, ?_⟩
    · rintro ⟨y, hy, h⟩; exact ⟨List.ne_nil_of_mem hy, h⟩
    · rintro ⟨hne, h⟩
      obtain ⟨y, hy⟩ := List.exists_mem_of_ne_nil _ hne
      exact ⟨y, hy, h⟩
  · intro s
    simp only [List.mem_append, List.mem_singleton, or_and_right, exists_or, exists_eq_left, true_and]
    refine or_congr Iff.rfl ⟨?_, ?_⟩
    · rintro ⟨y, hy, rfl⟩; exact hy
    · intro hy; exact ⟨s, hy, rfl⟩
  · intro s a b
    refine ite_or_iff ?_
    simp only [List.mem_append, List.mem_singleton, or_and_right, exists_or, exists_eq_left, true_and]
    refine or_congr Iff.rfl ⟨?_, ?_⟩
    · rintro ⟨y, hy, rfl, h⟩; exact ⟨hy, h⟩
    · rintro ⟨hy, h⟩; exact ⟨s, hy, rfl, h⟩

theorem ovLoop_ends {ix : Nat → α} (hix : Function.Injective ix) {n : Nat} {c : Coupling α W} (layers : List α)
    (count : Int) : ∀ (draws : List Nat) (i : Int) (p : MPlex α W) (used : List (Int × Int))
    (A : List ((Nat × Nat) × List α)), OvInv ix n c p used A →
    Ends (fun e => e = .indexError ∧ n < 2) (ovLoop ix n layers count draws i p used)
      (fun st => ∃ A', OvInv ix n c st.net st.used (A ++ A') ∧
        A'.map Prod.snd = List.replicate (count - i).toNat layers) := by
  intro draws
  induction draws with
  | nil =>
    intro i p used A h
    unfold ovLoop
    by_cases hi : i < count
    · rw [if_pos hi]
      by_cases hn : n * (n - 1) / 2 = 0
      · rw [if_pos hn]
        refine ⟨rfl, ?_⟩
        by_contra hc
        have := pairIndex_lt (v := 1) (w := 0) (n := n) (by omega) (by omega)
        omega
      · rw [if_neg hn]; trivial
    · rw [if_neg hi]
      refine ⟨[], by simpa using h, ?_⟩
      have : (count - i).toNat = 0 := by omega
      rw [this]; rfl
  | cons e draws ih =>
    intro i p used A h
    unfold ovLoop
    by_cases hi : i < count
    · rw [if_pos hi]
      by_cases hn : n * (n - 1) / 2 = 0
      · rw [if_pos hn]
        refine ⟨rfl, ?_⟩
        by_contra hc
        have := pairIndex_lt (v := 1) (w := 0) (n := n) (by omega) (by omega)
        omega
      rw [if_neg hn]
      simp only
      by_cases he : e < n * (n - 1) / 2
      · rw [if_neg (not_not.2 he)]
        obtain ⟨v, w, hwv, rfl, hr, hc⟩ := edge_spec e
        have hvn := lt_of_pairIndex he
        simp only [hr, hc, Int.toNat_natCast]
        by_cases hu : ((w : Int), (v : Int)) ∈ used
        · rw [if_neg (not_not.2 hu)]
          exact ih i p used A h
        · rw [if_pos hu]
          obtain ⟨p', e1, e2⟩ := h.net.add hix hwv layers
          simp only [e1]
          refine (ih (i + 1) p' (sadd used ((w : Int), (v : Int))) (A ++ [((w, v), layers)]) ⟨e2, ?_, ?_, ?_⟩).mono ?_
          · have : (w, v) ∉ A.map Prod.fst := fun hm => hu ((h.used (w, v)).2 hm)
            rw [List.map_append, List.nodup_append]
            refine ⟨h.nodup, by simp, ?_⟩
            intro a ha b hb hab
            simp only [List.map_cons, List.map_nil, List.mem_singleton] at hb
            rw [hab, hb] at ha
            exact this ha
          · intro x hx
            rcases List.mem_append.1 hx with hx | hx
            · exact h.lt x hx
            · rw [List.mem_singleton.1 hx]; exact ⟨hwv, hvn⟩
          · intro q
            rw [mem_sadd, h.used, List.map_append, List.mem_append]
            refine or_congr Iff.rfl ?_
            simp only [List.map_cons, List.map_nil, List.mem_singleton, Prod.ext_iff]
            simp
          · rintro st ⟨A', a1, a2⟩
            refine ⟨((w, v), layers) :: A', by simpa using a1, ?_⟩
            rw [List.map_cons, a2]
            have : (count - i).toNat = (count - (i + 1)).toNat + 1 := by omega
            rw [this]; rfl
      · rw [if_pos he]; trivial
    · rw [if_neg hi]
      refine ⟨[], by simpa using h, ?_⟩
      have : (count - i).toNat = 0 := by omega
      rw [this]; rfl

/-- the layers of the pairs drawn for the combinations -/
def combPlan (ps : List (List α × Int)) : List (List α) :=
  ps.flatMap fun c => if 1 < c.1.length then List.replicate (c.1.length * c.2).toNat c.1 else []

/-- the dictionary of the numbers of edges left -/
def leftDict (edges : Int) : List (List α × Int) → Dict α Int → Dict α Int
  | [], d => d
  | c :: ps, d => leftDict edges ps <|
    if c.1.length = 1 then c.1.foldl (fun d l => Dict.set d l ((Dict.get d l).getD edges)) d
    else if 1 < c.1.length then c.1.foldl (fun d l => Dict.set d l ((Dict.get d l).getD edges - c.2)) d
    else d

theorem leftDict_append (edges : Int) (ps qs : List (List α × Int)) (d : Dict α Int) :
    leftDict edges (ps ++ qs) d = leftDict edges qs (leftDict edges ps d) := by
  induction ps generalizing d with
  | nil => rfl
  | cons c ps ih => exact ih _

theorem erOverlaps_ends {ix : Nat → α} (hix : Function.Injective ix) (n : Nat) (edges : Int) (ps : List (List α × Int))
    (c : Coupling α W) (draws : List Nat) :
    Ends (fun e => e = .indexError ∧ n < 2) (erOverlaps ix n edges ps c draws)
      (fun p => ∃ used A, OvInv ix n c p used A ∧ A.map Prod.snd =
        combPlan ps ++ (leftDict edges ps []).flatMap fun l => List.replicate l.2.toNat [l.1]) := by
  have h1 := forS_ends (B := fun e => e = .indexError ∧ n < 2) (f := ovCombs ix n edges)
    (P := fun pre (st : OvState α W × Dict α Int) => st.2 = leftDict edges pre [] ∧
      ∃ A, OvInv ix n c st.1.net st.1.used A ∧ A.map Prod.snd = combPlan pre) ps
    (s := (⟨MPlex.init [c] false 0 true, [], draws⟩, []))
    ⟨rfl, [], ⟨(BuiltP.init c true).anyNL.congr (by simp) (by simp) (fun _ _ => Iff.rfl) (by simp),
      by simp, by simp, by simp⟩, rfl⟩ ?_
  · unfold erOverlaps
    match hx : forS (ovCombs ix n edges) ps (⟨MPlex.init [c] false 0 true, [], draws⟩, []) with
    | .error .more => trivial
    | .error (.raised e) => rw [hx] at h1; exact h1
    | .ok (st, left) =>
      rw [hx] at h1
      obtain ⟨rfl, A, a1, a2⟩ := h1
      simp only
      have h2 := forS_ends (B := fun e => e = .indexError ∧ n < 2)
        (f := fun st (l : α × Int) => ovLoop ix n [l.1] l.2 st.draws 0 st.net st.used)
        (P := fun pre (st : OvState α W) => ∃ A, OvInv ix n c st.net st.used A ∧ A.map Prod.snd =
          combPlan ps ++ pre.flatMap fun l => List.replicate l.2.toNat [l.1]) (leftDict edges ps []) (s := st)
        ⟨A, a1, by simp [a2]⟩ ?_
      · match hy : forS (fun st (l : α × Int) => ovLoop ix n [l.1] l.2 st.draws 0 st.net st.used)
          (leftDict edges ps []) st with
        | .error .more => trivial
        | .error (.raised e) => rw [hy] at h2; exact h2
        | .ok st2 => rw [hy] at h2; exact ⟨_, h2⟩
      · rintro pre l post st _ ⟨A, a1, a2⟩
        refine (ovLoop_ends hix [l.1] l.2 st.draws 0 st.net st.used A a1).mono ?_
        rintro st' ⟨A', b1, b2⟩
        refine ⟨_, b1, ?_⟩
        rw [List.map_append, a2, b2, List.flatMap_append, List.append_assoc]
        simp
  · rintro pre b post ⟨st, left⟩ _ ⟨rfl, A, a1, a2⟩
    rw [leftDict_append]
    unfold ovCombs
    simp only [leftDict, combPlan, List.flatMap_append, List.flatMap_cons, List.flatMap_nil, List.append_nil]
    by_cases hb1 : b.1.length = 1
    · rw [if_pos hb1]
      refine ⟨by rw [if_pos hb1], A, a1, ?_⟩
      rw [if_neg (by omega), List.append_nil]; exact a2
    rw [if_neg hb1]
    by_cases hb2 : 1 < b.1.length
    · rw [if_pos hb2]
      have h := ovLoop_ends hix b.1 (b.1.length * b.2) st.draws 0 st.net st.used A a1
      match hx : ovLoop ix n b.1 (b.1.length * b.2) st.draws 0 st.net st.used with
      | .error .more => trivial
      | .error (.raised e) => rw [hx] at h; exact h
      | .ok s =>
        rw [hx] at h
        obtain ⟨A', b1, b2⟩ := h
        refine ⟨by simp only [if_neg hb1, if_pos hb2], _, b1, ?_⟩
        rw [if_pos hb2, List.map_append, a2, b2]
        simp [combPlan]
    · rw [if_neg hb2]
      refine ⟨by simp only [if_neg hb1, if_neg hb2], A, a1, ?_⟩
      rw [if_neg hb2, List.append_nil]; exact a2

theorem foldl_left (edges m : Int) (ls : List α) : ∀ (d : Dict α Int) (x : α),
    Dict.get (ls.foldl (fun d l => Dict.set d l ((Dict.get d l).getD edges - m)) d) x =
      if x ∈ ls then some ((Dict.get d x).getD edges - ls.count x * m) else Dict.get d x := by
  induction ls with
  | nil => intro d x; simp
  | cons l ls ih =>
    intro d x
    rw [List.foldl_cons, ih, Dict.get_set]
    by_cases hx : l = x
    · subst hx
      by_cases hm : l ∈ ls
      · simp only [if_pos hm, List.mem_cons, true_or, if_true, Option.getD_some, List.count_cons_self]
        congr 1; push_cast; ring
      · simp only [if_neg hm, List.mem_cons, true_or, if_true, List.count_cons_self, List.count_eq_zero.2 hm]
        congr 1; push_cast; ring
    · have : x ≠ l := fun h => hx h.symm
      by_cases hm : x ∈ ls
      · simp only [if_pos hm, List.mem_cons, hm, or_true, if_true, if_neg hx, List.count_cons_of_ne hx]
      · simp only [if_neg hm, List.mem_cons, hm, this, or_self, if_false, if_neg hx]

theorem foldl_left_keys (g : Dict α Int → α → Int) (ls : List α) : ∀ (d : Dict α Int), (Dict.keys d).Nodup →
    (Dict.keys (ls.foldl (fun d l => Dict.set d l (g d l)) d)).Nodup := by
  induction ls with
  | nil => intro d h; exact h
  | cons l ls ih => intro d h; exact ih _ (Dict.nodup_keys_set h _ _)

theorem remaining_snoc (edges : Int) (ps : List (List α × Int)) (c : List α × Int) (x : α) :
    Spec.remaining edges (ps ++ [c]) x = Spec.remaining edges ps x - if 1 < c.1.length ∧ x ∈ c.1 then c.2 else 0 := by
  unfold Spec.remaining Spec.combinations
  rw [List.filter_append]
  by_cases h : 1 < c.1.length ∧ x ∈ c.1
  · simp [h]; omega
  · simp [h]

theorem remaining_absent (edges : Int) (ps : List (List α × Int)) {x : α} (h : ∀ c ∈ ps, x ∉ c.1) :
    Spec.remaining edges ps x = edges := by
  unfold Spec.remaining Spec.combinations
  rw [List.filter_eq_nil_iff.2]
  · simp
  · intro c hc; simp [h c hc]

theorem leftDict_spec (edges : Int) (ps : List (List α × Int)) (hd : ∀ c ∈ ps, c.1.Nodup) :
    (Dict.keys (leftDict edges ps [])).Nodup ∧ ∀ x, Dict.get (leftDict edges ps []) x =
      if ∃ c ∈ ps, x ∈ c.1 then some (Spec.remaining edges ps x) else none := by
  induction ps using List.reverseRecOn with
  | nil => exact ⟨by simp [leftDict, Dict.keys], by simp [leftDict]⟩
  | append_singleton ps c ih =>
    obtain ⟨h1, h2⟩ := ih (fun c hc => hd c (by simp [hc]))
    have hc := hd c (by simp)
    rw [leftDict_append]
    have hone : c.1.foldl (fun d l => Dict.set d l ((Dict.get d l).getD edges)) (leftDict edges ps []) =
        c.1.foldl (fun d l => Dict.set d l ((Dict.get d l).getD edges - 0)) (leftDict edges ps []) := by simp
    have hstep : leftDict edges [c] (leftDict edges ps []) = c.1.foldl (fun d l => Dict.set d l
        ((Dict.get d l).getD edges - if 1 < c.1.length then c.2 else 0)) (leftDict edges ps []) := by
      simp only [leftDict]
      by_cases l1 : c.1.length = 1
      · rw [if_pos l1, hone]; simp [l1]
      · rw [if_neg l1]
        by_cases l2 : 1 < c.1.length
        · simp only [if_pos l2]
        · have : c.1 = [] := List.length_eq_zero_iff.1 (by omega)
          rw [if_neg l2, this]; rfl
    rw [hstep]
    refine ⟨foldl_left_keys _ _ _ h1, fun x => ?_⟩
    rw [foldl_left, h2, remaining_snoc]
    have hex : (∃ c' ∈ ps ++ [c], x ∈ c'.1) ↔ (∃ c' ∈ ps, x ∈ c'.1) ∨ x ∈ c.1 := by
      simp only [List.mem_append, List.mem_singleton, or_and_right, exists_or, exists_eq_left]
    by_cases hx : x ∈ c.1
    · rw [if_pos hx, if_pos (hex.2 (.inr hx)), List.count_eq_one_of_mem hc hx]
      congr 1
      by_cases hp : ∃ c' ∈ ps, x ∈ c'.1
      · rw [if_pos hp]; simp [hx]
      · rw [if_neg hp, remaining_absent edges ps (fun c' h' hx' => hp ⟨c', h', hx'⟩)]; simp [hx]
    · rw [if_neg hx]
      by_cases hp : ∃ c' ∈ ps, x ∈ c'.1
      · rw [if_pos hp, if_pos (hex.2 (.inl hp))]; simp [hx]
      · rw [if_neg hp, if_neg (fun h => (hex.1 h).elim hp hx)]

theorem length_combPlan (ps : List (List α × Int)) (hm : ∀ c ∈ ps, 0 ≤ c.2) :
    ((combPlan ps).length : Int) = (ps.map fun c => if 1 < c.1.length then (c.1.length : Int) * c.2 else 0).sum := by
  induction ps with
  | nil => rfl
  | cons c ps ih =>
    have h1 := hm c (by simp)
    have := ih (fun c hc => hm c (by simp [hc]))
    unfold combPlan at this ⊢
    rw [List.flatMap_cons, List.length_append, List.map_cons, List.sum_cons, ← this]
    push_cast
    congr 1
    split
    · rw [List.length_replicate]
      have : (0 : Int) ≤ (c.1.length : Int) * c.2 := by positivity
      omega
    · rfl

theorem sum_combs {LS : List α} (hLS : LS.Nodup) (ps : List (List α × Int)) (hd : ∀ c ∈ ps, c.1.Nodup)
    (hsub : ∀ c ∈ ps, ∀ x ∈ c.1, x ∈ LS) :
    (LS.map fun x => ((Spec.combinations ps x).map Prod.snd).sum).sum =
      (ps.map fun c => if 1 < c.1.length then (c.1.length : Int) * c.2 else 0).sum := by
  induction ps with
  | nil => simp [Spec.combinations]
  | cons c ps ih =>
    rw [List.map_cons, List.sum_cons, ← ih (fun c hc => hd c (by simp [hc])) (fun c hc => hsub c (by simp [hc]))]
    have e : ∀ x, ((Spec.combinations (c :: ps) x).map Prod.snd).sum =
        (if 1 < c.1.length ∧ x ∈ c.1 then c.2 else 0) + ((Spec.combinations ps x).map Prod.snd).sum := by
      intro x
      unfold Spec.combinations
      by_cases h : 1 < c.1.length ∧ x ∈ c.1
      · rw [List.filter_cons_of_pos (by simpa using h), if_pos h]; simp
      · rw [List.filter_cons_of_neg (by simpa using h), if_neg h]; simp
    simp only [e]
    rw [List.sum_map_add]
    congr 1
    by_cases hl : 1 < c.1.length
    · simp only [hl, true_and, if_true]
      have h1 : (LS.map fun x => if x ∈ c.1 then c.2 else 0).sum = ((LS.filter (· ∈ c.1)).length : Int) * c.2 := by
        clear hLS hsub ih e
        induction LS with
        | nil => simp
        | cons y t ih =>
          rw [List.map_cons, List.sum_cons, ih]
          by_cases hy : y ∈ c.1
          · rw [if_pos hy, List.filter_cons_of_pos (by simpa using hy), List.length_cons]; push_cast; ring
          · rw [if_neg hy, List.filter_cons_of_neg (by simpa using hy)]; ring
      rw [h1]
      have h2 : (LS.filter (· ∈ c.1)).Perm c.1 := by
        rw [List.perm_ext_iff_of_nodup (hLS.filter _) (hd c (by simp))]
        intro x
        simp only [List.mem_filter, decide_eq_true_eq]
        exact ⟨fun h => h.2, fun h => ⟨hsub c (by simp) x h, h⟩⟩
      rw [h2.length_eq]
    · simp only [hl, false_and, if_false]
      simp

theorem length_leftPlan {LS : List α} (hLS : LS.Nodup) (edges : Int) (ps : List (List α × Int))
    (hd : ∀ c ∈ ps, c.1.Nodup) (hmem : ∀ x, x ∈ LS ↔ ∃ c ∈ ps, x ∈ c.1) (hr : ∀ x ∈ LS, 0 ≤ Spec.remaining edges ps x) :
    ((((leftDict edges ps []).flatMap fun l => List.replicate l.2.toNat [l.1]).length : Nat) : Int) =
      (LS.map (Spec.remaining edges ps)).sum := by
  obtain ⟨h1, h2⟩ := leftDict_spec edges ps hd
  generalize leftDict edges ps [] = d at *
  have hd' : d = (Dict.keys d).map fun x => (x, Spec.remaining edges ps x) := by
    unfold Dict.keys
    rw [List.map_map]
    conv_lhs => rw [← List.map_id d]
    refine List.map_congr_left fun p hp => ?_
    have := Dict.get_of_mem h1 (show (p.1, p.2) ∈ d from hp)
    rw [h2] at this
    split at this
    · cases p; simp at this ⊢; exact this.symm
    · cases this
  have hperm : (Dict.keys d).Perm LS := by
    rw [List.perm_ext_iff_of_nodup h1 hLS]
    intro x
    rw [Dict.mem_keys, h2, hmem]
    split
    · rename_i h; exact ⟨fun _ => h, fun _ => rfl⟩
    · rename_i h; exact ⟨fun h' => (by cases h'), fun h' => absurd h' h⟩
  rw [hd', List.flatMap_map, ← (hperm.map (Spec.remaining edges ps)).sum_eq]
  have hr' : ∀ x ∈ Dict.keys d, 0 ≤ Spec.remaining edges ps x := fun x hx => hr x (hperm.mem_iff.1 hx)
  clear hd' hperm h1 h2
  generalize Dict.keys d = ks at *
  induction ks with
  | nil => rfl
  | cons k ks ih =>
    rw [List.flatMap_cons, List.length_append, List.map_cons, List.sum_cons]
    have := ih (fun x hx => hr' x (by simp [hx]))
    have h0 := hr' k (by simp)
    simp only [List.length_replicate] at *
    push_cast at *
    rw [this]
    omega

theorem ov_total {LS : List α} (hLS : LS.Nodup) {edges : Int} {ps : List (List α × Int)}
    (hd : ∀ c ∈ ps, c.1.Nodup) (hm : ∀ c ∈ ps, 0 ≤ c.2) (hmem : ∀ x, x ∈ LS ↔ ∃ c ∈ ps, x ∈ c.1)
    (hr : ∀ x ∈ LS, 0 ≤ Spec.remaining edges ps x) {A : List ((Nat × Nat) × List α)} (hA : A.map Prod.snd =
        combPlan ps ++ (leftDict edges ps []).flatMap fun l => List.replicate l.2.toNat [l.1]) :
    (A.length : Int) = edges * LS.length := by
  have h := congrArg List.length hA
  rw [List.length_map, List.length_append] at h
  rw [h]
  push_cast
  rw [length_combPlan ps hm, length_leftPlan hLS edges ps hd hmem hr, ← sum_combs hLS ps hd
    (fun c hc x hx => (hmem x).2 ⟨c, hc, hx⟩)]
  unfold Spec.remaining
  rw [← List.sum_map_add]
  simp [mul_comm]

theorem length_combPlan_layer (ps : List (List α × Int)) (hm : ∀ c ∈ ps, 0 ≤ c.2) (s : α) :
    (((combPlan ps).filter (s ∈ ·)).length : Int) =
      ((Spec.combinations ps s).map fun c => (c.1.length : Int) * c.2).sum := by
  induction ps with
  | nil => rfl
  | cons c ps ih =>
    have h1 := hm c (by simp)
    have := ih (fun c hc => hm c (by simp [hc]))
    unfold combPlan Spec.combinations at this ⊢
    rw [List.flatMap_cons, List.filter_append, List.length_append]
    push_cast
    rw [this]
    by_cases hl : 1 < c.1.length
    · by_cases hs : s ∈ c.1
      · rw [if_pos hl, List.filter_cons_of_pos (by simp [hl, hs]), List.map_cons, List.sum_cons, List.filter_replicate,
          if_pos (by simpa using hs), List.length_replicate]
        have : (0 : Int) ≤ (c.1.length : Int) * c.2 := by positivity
        omega
      · rw [if_pos hl, List.filter_cons_of_neg (by simp [hs]), List.filter_replicate, if_neg (by simpa using hs)]
        simp
    · rw [if_neg hl, List.filter_cons_of_neg (by simp [hl])]
      simp

theorem length_leftPlan_layer : ∀ (d : Dict α Int), (Dict.keys d).Nodup → ∀ (s : α) (v : Int), Dict.get d s = some v →
    ((d.flatMap fun l => List.replicate l.2.toNat [l.1]).filter (s ∈ ·)).length = v.toNat := by
  have absent : ∀ (d : Dict α Int) (s : α), s ∉ Dict.keys d →
      (d.flatMap fun l => List.replicate l.2.toNat [l.1]).filter (s ∈ ·) = [] := by
    intro d s hs
    rw [List.filter_eq_nil_iff]
    intro x hx
    obtain ⟨l, hl, hx⟩ := List.mem_flatMap.1 hx
    rw [List.mem_replicate] at hx
    rw [hx.2]
    simp only [List.mem_singleton, decide_eq_true_eq]
    rintro rfl
    exact hs (List.mem_map.2 ⟨l, hl, rfl⟩)
  intro d
  induction d with
  | nil => intro _ s v h; cases h
  | cons p d ih =>
    intro hn s v h
    rw [Dict.keys, List.map_cons, List.nodup_cons] at hn
    rw [List.flatMap_cons, List.filter_append, List.length_append, List.filter_replicate]
    obtain ⟨k, x⟩ := p
    rw [Dict.get_cons] at h
    by_cases hk : k = s
    · subst hk
      rw [if_pos rfl] at h
      cases h
      rw [absent d k hn.1]
      simp
    · rw [if_neg hk] at h
      rw [ih hn.2 s v h, if_neg (by simpa using fun h => hk h.symm)]
      simp

theorem ov_layer {edges : Int} {ps : List (List α × Int)} (hd : ∀ c ∈ ps, c.1.Nodup) (hm : ∀ c ∈ ps, 0 ≤ c.2) {s : α}
    (hs : ∃ c ∈ ps, s ∈ c.1) (hr : 0 ≤ Spec.remaining edges ps s) {A : List ((Nat × Nat) × List α)}
    (hA : A.map Prod.snd =
        combPlan ps ++ (leftDict edges ps []).flatMap fun l => List.replicate l.2.toNat [l.1]) :
    ((A.filter fun e => s ∈ e.2).length : Int) = Spec.remaining edges ps s +
      ((Spec.combinations ps s).map fun c => (c.1.length : Int) * c.2).sum := by
  obtain ⟨h1, h2⟩ := leftDict_spec edges ps hd
  have h : (A.filter fun e => s ∈ e.2).length = ((A.map Prod.snd).filter (s ∈ ·)).length := by
    rw [List.filter_map, List.length_map]; rfl
  rw [h, hA, List.filter_append, List.length_append]
  push_cast
  rw [length_combPlan_layer ps hm, length_leftPlan_layer _ h1 s _ ((h2 s).trans (if_pos hs))]
  omega

/-- the edge of an index -/
noncomputable def ovEdge (e : Nat) : Int × Int := (edgeCol e, edgeRow e)

theorem ovEdge_inj {e e' : Nat} (h : ovEdge e = ovEdge e') : e = e' := by
  obtain ⟨v, w, h1, rfl, h3, h4⟩ := edge_spec e
  obtain ⟨v', w', h1', rfl, h3', h4'⟩ := edge_spec e'
  unfold ovEdge at h
  rw [h3, h4, h3', h4'] at h
  simp only [Prod.mk.injEq, Nat.cast_inj] at h
  rw [h.1, h.2]

theorem ovLoop_returns {ix : Nat → α} (hix : Function.Injective ix) {n : Nat} {c : Coupling α W} (layers : List α)
    (count : Int) : ∀ (draws : List Nat) (i : Int) (p : MPlex α W) (used : List (Int × Int))
    (A : List ((Nat × Nat) × List α)), OvInv ix n c p used A → draws.Nodup → (∀ e ∈ draws, e < n * (n - 1) / 2) →
    (∀ e ∈ draws, ovEdge e ∉ used) → (count - i).toNat ≤ draws.length →
    ∃ st, ovLoop ix n layers count draws i p used = .ok st ∧ st.draws = draws.drop (count - i).toNat ∧
      ∀ e ∈ st.draws, ovEdge e ∉ st.used := by
  intro draws
  induction draws with
  | nil =>
    intro i p used A h _ _ _ hlen
    unfold ovLoop
    rw [if_neg (by simp at hlen; omega)]
    exact ⟨_, rfl, by simp, by simp⟩
  | cons e draws ih =>
    intro i p used A h hn hv hu hlen
    unfold ovLoop
    by_cases hi : i < count
    · have he := hv e (by simp)
      rw [if_pos hi, if_neg (by omega)]
      simp only
      rw [if_neg (not_not.2 he)]
      have hue := hu e (by simp)
      rw [if_pos (show (edgeCol e, edgeRow e) ∉ used from hue)]
      obtain ⟨v, w, hwv, rfl, hr, hc⟩ := edge_spec e
      have hvn := lt_of_pairIndex he
      simp only [ovEdge, hr, hc] at hue
      simp only [hr, hc, Int.toNat_natCast]
      obtain ⟨p', e1, e2⟩ := h.net.add hix hwv layers
      simp only [e1]
      rw [List.nodup_cons] at hn
      have hinv : OvInv ix n c p' (sadd used ((w : Int), (v : Int))) (A ++ [((w, v), layers)]) := by
        refine ⟨e2, ?_, ?_, ?_⟩
        · have : (w, v) ∉ A.map Prod.fst := fun hm => hue ((h.used (w, v)).2 hm)
          rw [List.map_append, List.nodup_append]
          refine ⟨h.nodup, by simp, ?_⟩
          intro a ha b hb hab
          simp only [List.map_cons, List.map_nil, List.mem_singleton] at hb
          rw [hab, hb] at ha
          exact this ha
        · intro x hx
          rcases List.mem_append.1 hx with hx | hx
          · exact h.lt x hx
          · rw [List.mem_singleton.1 hx]; exact ⟨hwv, hvn⟩
        · intro q
          rw [mem_sadd, h.used, List.map_append, List.mem_append]
          refine or_congr Iff.rfl ?_
          simp only [List.map_cons, List.map_nil, List.mem_singleton, Prod.ext_iff]
          simp
      have hfresh : ∀ x ∈ draws, ovEdge x ∉ sadd used ((w : Int), (v : Int)) := by
        intro x hx hm
        rw [mem_sadd] at hm
        rcases hm with hm | hm
        · exact hu x (by simp [hx]) hm
        · have : ovEdge x = ovEdge (Spec.pairIndex v w) := by rw [hm]; simp [ovEdge, hr, hc]
          exact hn.1 (ovEdge_inj this ▸ hx)
      obtain ⟨st, s1, s2, s3⟩ := ih (i + 1) p' _ _ hinv hn.2 (fun e he => hv e (by simp [he])) hfresh
        (by simp at hlen; omega)
      refine ⟨st, s1, ?_, s3⟩
      rw [s2]
      have : (count - i).toNat = (count - (i + 1)).toNat + 1 := by omega
      rw [this, List.drop_succ_cons]
    · rw [if_neg hi]
      have : (count - i).toNat = 0 := by omega
      exact ⟨_, rfl, by rw [this]; rfl, hu⟩

theorem erOverlaps_returns {ix : Nat → α} (hix : Function.Injective ix) (n : Nat) (edges : Int) (ps : List (List α × Int))
    (c : Coupling α W) {draws : List Nat} (hn : draws.Nodup) (hv : ∀ e ∈ draws, e < n * (n - 1) / 2)
    (hlen : (combPlan ps ++ (leftDict edges ps []).flatMap fun l => List.replicate l.2.toNat [l.1]).length ≤
      draws.length) :
    ∃ p, erOverlaps ix n edges ps c draws = .ok p := by
  rw [List.length_append] at hlen
  obtain ⟨st, h1, h2, A, h3, h4, h5⟩ := forS_returns (f := ovCombs ix n edges)
    (P := fun pre (st : OvState α W × Dict α Int) => st.2 = leftDict edges pre [] ∧
      ∃ A, OvInv ix n c st.1.net st.1.used A ∧ st.1.draws = draws.drop (combPlan pre).length ∧
        ∀ e ∈ st.1.draws, ovEdge e ∉ st.1.used) ps
    (s := (⟨MPlex.init [c] false 0 true, [], draws⟩, []))
    ⟨rfl, [], ⟨(BuiltP.init c true).anyNL.congr (by simp) (by simp) (fun _ _ => Iff.rfl) (by simp),
      by simp, by simp, by simp⟩, rfl, by simp⟩ (by
    rintro pre b post ⟨st, left⟩ hsplit ⟨rfl, A, a1, a2, a3⟩
    have hpl : (combPlan (pre ++ [b])).length ≤ draws.length := by
      have : (combPlan ps).length = (combPlan (pre ++ [b])).length + (combPlan post).length := by
        rw [hsplit, ← List.length_append]
        congr 1
        simp [combPlan]
      omega
    rw [leftDict_append]
    unfold ovCombs
    simp only [leftDict]
    have hcp : combPlan (pre ++ [b]) = combPlan pre ++ if 1 < b.1.length then
        List.replicate (b.1.length * b.2).toNat b.1 else [] := by simp [combPlan]
    rw [hcp] at hpl ⊢
    by_cases hb1 : b.1.length = 1
    · rw [if_pos hb1]
      refine ⟨_, rfl, by rw [if_pos hb1], A, a1, ?_, a3⟩
      rw [if_neg (by omega), List.append_nil]; exact a2
    rw [if_neg hb1]
    by_cases hb2 : 1 < b.1.length
    · rw [if_pos hb2] at hpl ⊢
      simp only at a2 a3
      have hsub : ∀ e ∈ st.draws, e ∈ draws := fun e he => List.mem_of_mem_drop (a2 ▸ he)
      obtain ⟨s, s1, s2, s3⟩ := ovLoop_returns hix b.1 (b.1.length * b.2) st.draws 0 st.net st.used A a1
        (a2 ▸ hn.sublist (List.drop_sublist _ _)) (fun e he => hv e (hsub e he)) a3
        (by rw [a2, List.length_drop]; rw [List.length_append, List.length_replicate] at hpl; simp; omega)
      obtain ⟨A', b1, -⟩ := (ovLoop_ends hix b.1 (b.1.length * b.2) st.draws 0 st.net st.used A a1).ok s1
      rw [s1]
      refine ⟨_, rfl, by simp only [if_neg hb1, if_pos hb2], _, b1, ?_, s3⟩
      simp only
      rw [s2, a2, List.drop_drop, if_pos hb2, List.length_append, List.length_replicate]
      simp
    · rw [if_neg hb2]
      refine ⟨_, rfl, by simp only [if_neg hb1, if_neg hb2], A, a1, ?_, a3⟩
      rw [if_neg hb2, List.append_nil]; exact a2)
  unfold erOverlaps
  rw [h1]
  obtain ⟨st, left⟩ := st
  simp only at h2 h4 h5
  subst h2
  simp only
  have hleft := (forS_returns (f := fun st (l : α × Int) => ovLoop ix n [l.1] l.2 st.draws 0 st.net st.used)
    (P := fun pre (st : OvState α W) => ∃ A, OvInv ix n c st.net st.used A ∧
      st.draws = draws.drop ((combPlan ps).length + (pre.flatMap fun l => List.replicate l.2.toNat [l.1]).length) ∧
      ∀ e ∈ st.draws, ovEdge e ∉ st.used) (leftDict edges ps []) (s := st) ⟨A, h3, by simpa using h4, h5⟩ ?_)
  · obtain ⟨s', e, -⟩ := hleft
    rw [e]
    exact ⟨_, rfl⟩
  · rintro pre l post st hsplit ⟨A, a1, a2, a3⟩
    have hsub : ∀ e ∈ st.draws, e ∈ draws := fun e he => List.mem_of_mem_drop (a2 ▸ he)
    obtain ⟨s, s1, s2, s3⟩ := ovLoop_returns hix [l.1] l.2 st.draws 0 st.net st.used A a1
        (a2 ▸ hn.sublist (List.drop_sublist _ _)) (fun e he => hv e (hsub e he)) a3 (by
          rw [a2, List.length_drop]
          rw [hsplit, List.flatMap_append, List.flatMap_cons] at hlen
          simp only [List.length_append, List.length_replicate] at hlen
          rw [Int.sub_zero]; omega)
    obtain ⟨A', b1, -⟩ := (ovLoop_ends hix [l.1] l.2 st.draws 0 st.net st.used A a1).ok s1
    refine ⟨s, s1, _, b1, ?_, s3⟩
    rw [s2, a2, List.drop_drop, List.flatMap_append, List.length_append]
    simp [Nat.add_assoc]

end Pymnet

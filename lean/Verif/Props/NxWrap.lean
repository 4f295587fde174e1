import Verif.Model.NxWrap

/-! Property C48: the wrapper of networkx functions. -/

namespace Pymnet

open Py Nx

variable {ν β κ ρ ε : Type}

/-- The arguments a wrapped function accepts: networks must have no aspects and be undirected. -/
def Spec.Accepted : Val ν β → Prop
  | .net aspects directed _ => aspects = 0 ∧ directed = false
  | _ => True

/-- What the wrapped function sees of an argument: the view of a network. -/
def Spec.asView : Val ν β → Val ν β
  | .net _ _ id => .view id
  | v => v

/-- What the caller sees of a result: the network of a view. -/
def Spec.asNet : Val ν β → Val ν β
  | .view id => .net 0 false id
  | v => v

theorem autowrapAll_cases (args : List (Val ν β)) :
    (∃ args', autowrapAll args = .ok args' ∧ ∀ v ∈ args, Spec.Accepted v) ∨
    (autowrapAll args = .error .assertionError ∧ ∃ v ∈ args, ¬ Spec.Accepted v) := by
  induction args with
  | nil => exact .inl ⟨[], rfl, by simp⟩
  | cons v vs ih =>
    have hv : (Spec.Accepted v ∧ ∃ v', autowrap v = .ok v') ∨ (¬ Spec.Accepted v ∧ autowrap v = .error .assertionError) := by
      cases v with
      | net a d id =>
        by_cases h1 : a = 0
        · cases d
          · exact .inl ⟨⟨h1, rfl⟩, .view id, by simp [autowrap, h1]⟩
          · exact .inr ⟨fun h => (nomatch h.2), by simp [autowrap, h1]⟩
        · exact .inr ⟨fun h => h1 h.1, by simp [autowrap, h1]⟩
      | view id => exact .inl ⟨trivial, _, rfl⟩
      | other b => exact .inl ⟨trivial, _, rfl⟩
    rcases hv with ⟨h1, v', h2⟩ | ⟨h1, h2⟩
    · rcases ih with ⟨vs', h3, h4⟩ | ⟨h3, x, h4, h5⟩
      · exact .inl ⟨v' :: vs', by simp [autowrapAll, h2, h3], by simpa [h1] using h4⟩
      · exact .inr ⟨by simp [autowrapAll, h2, h3], x, by simp [h4], h5⟩
    · exact .inr ⟨by simp [autowrapAll, h2], v, by simp, h1⟩

/-- **C48, the calls that return and the calls that are rejected.** Whatever the wrapped function does — it may call other
wrapped functions, which may raise, or assign `networkx.Graph` itself — if the call returns, `networkx.Graph` is what it
was before. If an argument is a network that has aspects or is directed, the call raises `AssertionError` and changes
nothing. Missing: calls in which the wrapped function raises (see `C48_false`). -/
theorem C48_restores_partial (lift : Err → ε) (view : κ) (f : Fn ν β κ ρ ε) (args : List (Val ν β)) (w : World κ ρ) :
    (∀ r, (decorate lift view f args w).2 = .ok r → (decorate lift view f args w).1.graph = w.graph) ∧
    ((∃ v ∈ args, ¬ Spec.Accepted v) → decorate lift view f args w = (w, .error (lift .assertionError))) := by
  rcases autowrapAll_cases args with ⟨args', h1, h2⟩ | ⟨h1, h2⟩
  · refine ⟨fun r hr => ?_, fun ⟨v, hv, hv'⟩ => absurd (h2 v hv) hv'⟩
    unfold decorate at hr ⊢
    rw [h1] at hr ⊢
    simp only at hr ⊢
    split at hr
    · cases hr
    · rfl
  · refine ⟨fun r hr => ?_, fun _ => by unfold decorate; rw [h1]⟩
    unfold decorate at hr
    rw [h1] at hr; cases hr

/-- **C48.** The function is called on views of the networks, with `networkx.Graph` replaced by the view class; what it
leaves in the rest of the world stays, and a view it returns is handed back as the network. -/
theorem C48_transparent (lift : Err → ε) (view : κ) (f : Fn ν β κ ρ ε) (args : List (Val ν β)) (w : World κ ρ)
    (h : ∀ v ∈ args, Spec.Accepted v) :
    let seen := f (args.map Spec.asView) ⟨view, w.rest⟩
    (decorate lift view f args w).1.rest = seen.1.rest ∧
    (∀ e, seen.2 = .error e → (decorate lift view f args w).2 = .error e) ∧
    (∀ r, seen.2 = .ok r → (decorate lift view f args w).2 =
      .ok (Spec.asNet r)) := by
  have hw : ∀ args : List (Val ν β), (∀ v ∈ args, Spec.Accepted v) →
      autowrapAll args = .ok (args.map Spec.asView) := by
    intro args
    induction args with
    | nil => intro _; rfl
    | cons v vs ih =>
      intro h
      have hv := h v (by simp)
      have : autowrap v = .ok (Spec.asView v) := by
        cases v with
        | net a d id => obtain ⟨rfl, rfl⟩ := hv; rfl
        | view id => rfl
        | other b => rfl
      rw [List.map_cons, autowrapAll, this, ih fun x hx => h x (by simp [hx])]
  simp only
  unfold decorate
  rw [hw args h]
  simp only
  split
  · rename_i w' e he; rw [he]; simp
  · rename_i w' r he
    rw [he]
    refine ⟨rfl, by simp, fun r' hr' => ?_⟩
    cases hr'
    cases r <;> rfl

/-- **C48 is false when the wrapped function raises**: if the function does not touch `networkx.Graph` itself, the view
class stays in its place. It stays there during every later sequence of calls of wrapped functions that do not touch
`networkx.Graph`, whether they return or raise. -/
theorem C48_false (lift : Err → ε) {view : κ} {f : Fn ν β κ ρ ε} {args : List (Val ν β)} {w : World κ ρ}
    (hf : ∀ a w, (f a w).1.graph = w.graph) (hargs : ∀ v ∈ args, Spec.Accepted v)
    (hr : ∀ a w, ∃ e, (f a w).2 = .error e) (hw : w.graph ≠ view)
    (later : List (Fn ν β κ ρ ε × List (Val ν β))) (hl : ∀ c ∈ later, ∀ a w, (c.1 a w).1.graph = w.graph) :
    (decorate lift view f args w).1.graph ≠ w.graph ∧
    (callAll lift view later (decorate lift view f args w).1).graph = view := by
  have h1 : (decorate lift view f args w).1.graph = view := by
    rcases autowrapAll_cases args with ⟨args', h1, -⟩ | ⟨-, v, hv, hv'⟩
    · unfold decorate
      rw [h1]
      simp only
      obtain ⟨e, he⟩ := hr args' { w with graph := view }
      have hg := hf args' { w with graph := view }
      rcases hx : f args' { w with graph := view } with ⟨w', r⟩
      rw [hx] at he hg
      simp only at he
      subst he
      exact hg
    · exact absurd (hargs v hv) hv'
  refine ⟨fun h => hw (h.symm.trans h1), ?_⟩
  generalize (decorate lift view f args w).1 = w1 at h1
  induction later generalizing w1 with
  | nil => exact h1
  | cons c cs ih =>
    rw [callAll]
    refine ih (fun c' hc => hl c' (by simp [hc])) _ ?_
    unfold decorate
    split
    · exact h1
    · rename_i args' _
      simp only
      have hg := hl c (by simp) args' { w1 with graph := view }
      split
      · rename_i w' e he; rw [he] at hg; exact hg
      · exact h1

/-- **C48**, sequences of calls: as long as no wrapped function raises, `networkx.Graph` is what it was before the first
call. -/
theorem C48_sequence (lift : Err → ε) (view : κ) (calls : List (Fn ν β κ ρ ε × List (Val ν β))) (w : World κ ρ)
    (h : ∀ c ∈ calls, ∀ a w, ∃ r, (c.1 a w).2 = .ok r) : (callAll lift view calls w).graph = w.graph := by
  induction calls generalizing w with
  | nil => rfl
  | cons c cs ih =>
    rw [callAll, ih _ fun c' hc => h c' (by simp [hc])]
    rcases autowrapAll_cases c.2 with ⟨args', h1, -⟩ | ⟨-, hb⟩
    · obtain ⟨r, hr⟩ := h c (by simp) args' { w with graph := view }
      refine (C48_restores_partial lift view c.1 c.2 w).1 (unwrap r) ?_
      unfold decorate
      rw [h1]
      simp only
      split
      · rename_i w' e he; rw [he] at hr; cases hr
      · rename_i w' r' he
        rw [he] at hr; cases hr; rfl
    · rw [(C48_restores_partial lift view c.1 c.2 w).2 hb]

/-- a function that returns a new graph, one that raises, and the two called one after the other -/
example : (decorate (ε := Err) id "View" (fun _ w => ({ w with graph := "Other" }, .ok (.view 7)))
      [Val.net 0 false 3, .other 'x'] ⟨"Graph", ()⟩) = (⟨"Graph", ()⟩, .ok (.net 0 false 7)) := rfl

example : (callAll (ε := Err) (ν := Nat) (β := Char) id "View"
    [(fun _ w => (w, .error .valueError), [.net 0 false 3]), (fun _ w => (w, .ok (.other 'x')), [])] ⟨"Graph", ()⟩).graph =
      "View" := rfl

end Pymnet

import Verif.Model.Objects

/-
General lemmas about method calls on objects, and the refinement of each class: whatever the
attributes of the object are, a call of `cluster` gives the result of the model without attributes.
-/

namespace Verif

open Meth

namespace Meth

variable {σ β γ ι ρ : Type}

/-- The method `x`, called on `s`, does what the computation `r` does: the same exception, or the
attributes and the result given by `k`. -/
def Runs (x : Meth σ β) (s : σ) (r : Except PyErr γ) (k : γ → σ × β) : Prop :=
  match r with
  | .ok c => x s = ((k c).1, .ok (k c).2)
  | .error e => (x s).2 = .error e

theorem pure_apply (b : β) (s : σ) : (pure b : Meth σ β) s = (s, .ok b) := rfl

theorem bind_apply (x : Meth σ β) (f : β → Meth σ γ) (s : σ) :
    (x >>= f) s = match x s with | (s', .ok b) => f b s' | (s', .error e) => (s', .error e) := rfl

theorem bind_ok {x : Meth σ β} {f : β → Meth σ γ} {s s' : σ} {b : β} (h : x s = (s', .ok b)) : (x >>= f) s = f b s' := by
  show (match x s with | (s', .ok b) => f b s' | (s', .error e) => (s', .error e)) = _
  rw [h]

theorem bind_error {x : Meth σ β} {f : β → Meth σ γ} {s : σ} {e : PyErr} (h : (x s).2 = .error e) :
    ((x >>= f) s).2 = .error e := by
  show (match x s with | (s', .ok b) => f b s' | (s', .error e) => (s', .error e)).2 = _
  rcases hx : x s with ⟨s', r⟩
  rw [hx] at h
  simp only at h
  subst h
  rfl

instance : LawfulMonad (Meth σ) := LawfulMonad.mk'
  (id_map := by
    intro α x
    funext s
    show (match x s with | (s', .ok b) => (s', Except.ok b) | (s', .error e) => (s', .error e)) = x s
    rcases x s with ⟨s', _ | _⟩ <;> rfl)
  (pure_bind := fun _ _ => rfl)
  (bind_assoc := by
    intro α β γ x f g
    funext s
    show (match (match x s with | (s', .ok b) => f b s' | (s', .error e) => (s', .error e)) with
        | (s', .ok b) => g b s' | (s', .error e) => (s', .error e)) =
      (match x s with
        | (s', .ok b) => (match f b s' with | (s', .ok b) => g b s' | (s', .error e) => (s', .error e))
        | (s', .error e) => (s', .error e))
    rcases x s with ⟨s', _ | _⟩ <;> rfl)

theorem bind_attr {f : σ → Option β} {g : β → Meth σ γ} {s : σ} {b : β} (h : f s = some b) : (attr f >>= g) s = g b s :=
  bind_ok (by simp [attr, h])

theorem bind_param (f : σ → β) (g : β → Meth σ γ) (s : σ) : (param f >>= g) s = g (f s) s := rfl

theorem bind_notNone {f : σ → Option β} {g : β → Meth σ γ} {s : σ} {b : β} (h : f s = some b) : (notNone f >>= g) s = g b s :=
  bind_ok (by simp [notNone, h])

theorem bind_write (f : σ → σ) (g : Unit → Meth σ γ) (s : σ) : (write f >>= g) s = g () (f s) := rfl

theorem bind_lift_ok {r : Except PyErr β} {b : β} (h : r = .ok b) (g : β → Meth σ γ) (s : σ) : (lift r >>= g) s = g b s := by
  subst h; rfl

theorem bind_lift_error {r : Except PyErr β} {e : PyErr} (h : r = .error e) (g : β → Meth σ γ) (s : σ) :
    (lift r >>= g) s = (s, .error e) := by
  subst h; rfl

theorem runs_bind {δ' : Type} {x : Meth σ β} {f : β → Meth σ γ} {s : σ} {r : Except PyErr δ'} {k : δ' → σ × β}
    (h : Runs x s r k) {ε : Type} {r' : δ' → Except PyErr ε} {k' : ε → σ × γ}
    (h' : ∀ d, r = .ok d → Runs (f (k d).2) (k d).1 (r' d) k') : Runs (x >>= f) s (r >>= r') k' := by
  cases r with
  | error e => exact bind_error h
  | ok d =>
    have h1 : (x >>= f) s = f (k d).2 (k d).1 := bind_ok h
    have h2 := h' d rfl
    show Runs (x >>= f) s (r' d) k'
    unfold Runs at h2 ⊢
    cases hr : r' d with
    | error e => rw [hr] at h2; simpa [h1] using h2
    | ok c => rw [hr] at h2; simpa [h1] using h2

theorem runs_lift (r : Except PyErr β) (s : σ) : Runs (lift r : Meth σ β) s r (fun b => (s, b)) := by
  cases r <;> rfl

theorem runs_pure (b : β) (s : σ) : Runs (pure b : Meth σ β) s (pure b : Except PyErr β) (fun b => (s, b)) := rfl

theorem runs_attr {x : γ → Meth σ β} {f : σ → Option γ} {s : σ} {b : γ} {ε : Type} {r : Except PyErr ε} {k : ε → σ × β}
    (h : f s = some b) (h' : Runs (x b) s r k) : Runs (attr f >>= x) s r k := by
  unfold Runs at h' ⊢; rw [bind_attr h]; exact h'

theorem runs_notNone {x : γ → Meth σ β} {f : σ → Option γ} {s : σ} {b : γ} {ε : Type} {r : Except PyErr ε} {k : ε → σ × β}
    (h : f s = some b) (h' : Runs (x b) s r k) : Runs (notNone f >>= x) s r k := by
  unfold Runs at h' ⊢; rw [bind_notNone h]; exact h'

theorem runs_param {x : γ → Meth σ β} {f : σ → γ} {s : σ} {ε : Type} {r : Except PyErr ε} {k : ε → σ × β}
    (h' : Runs (x (f s)) s r k) : Runs (param f >>= x) s r k := h'

theorem runs_write {x : Unit → Meth σ β} {f : σ → σ} {s : σ} {ε : Type} {r : Except PyErr ε} {k : ε → σ × β}
    (h' : Runs (x ()) (f s) r k) : Runs (write f >>= x) s r k := h'

theorem runs_fail {e : PyErr} {s : σ} {k : γ → σ × β} : Runs (fail e : Meth σ β) s (.error e) k := rfl

/-- A last step that cannot fail. -/
theorem runs_then {x : Meth σ β} {f : β → Meth σ γ} {s : σ} {ε : Type} {r : Except PyErr ε} {k : ε → σ × β}
    {k' : ε → σ × γ} (h : Runs x s r k) (h' : ∀ d, f (k d).2 (k d).1 = ((k' d).1, .ok (k' d).2)) : Runs (x >>= f) s r k' := by
  cases r with
  | error e => exact bind_error h
  | ok d => show (x >>= f) s = _; rw [bind_ok h]; exact h' d

theorem Runs.map {x : Meth σ β} {s : σ} {r : Except PyErr γ} {k k' : γ → σ × β} (h : Runs x s r k)
    (hk : ∀ c, r = .ok c → k c = k' c) : Runs x s r k' := by
  cases r with
  | error e => exact h
  | ok c =>
    show x s = _
    rw [← hk c rfl]
    exact h

/-- The result part. -/
theorem Runs.result {x : Meth σ β} {s : σ} {r : Except PyErr γ} {k : γ → σ × β} (h : Runs x s r k) :
    (x s).2 = r.map fun c => (k c).2 := by
  cases r with
  | error e => exact h
  | ok c => show (x s).2 = .ok (k c).2; rw [show x s = _ from h]

theorem Runs.state {x : Meth σ β} {s : σ} {r : Except PyErr γ} {k : γ → σ × β} (h : Runs x s r k) {c : γ} (hr : r = .ok c) :
    (x s).1 = (k c).1 := by
  subst hr
  rw [show x s = _ from h]

/-- Loops: `put` puts the attributes of the loop state in the object, `loc` are the local variables. -/
theorem runs_foldlM {lam : Type} {step : lam → ι → Meth σ lam} {f : γ → ι → Except PyErr γ} (put : γ → σ) (loc : γ → lam)
    (l : List ι) (h : ∀ g, ∀ i ∈ l, Runs (step (loc g) i) (put g) (f g i) (fun g' => (put g', loc g'))) (g : γ) :
    Runs (l.foldlM step (loc g)) (put g) (l.foldlM f g) (fun g' => (put g', loc g')) := by
  induction l generalizing g with
  | nil => exact rfl
  | cons i l ih =>
    rw [List.foldlM_cons, List.foldlM_cons]
    refine runs_bind (h g i (by simp)) fun d _ => ?_
    exact ih (fun g' i' hi' => h g' i' (by simp [hi'])) d

/-- The same, with an invariant of the loop state. -/
theorem runs_foldlM_inv {lam : Type} {step : lam → ι → Meth σ lam} {f : γ → ι → Except PyErr γ} (put : γ → σ) (loc : γ → lam)
    (I : γ → Prop) (l : List ι) (hI : ∀ g, ∀ i ∈ l, I g → ∀ g', f g i = .ok g' → I g')
    (h : ∀ g, ∀ i ∈ l, I g → Runs (step (loc g) i) (put g) (f g i) (fun g' => (put g', loc g'))) (g : γ) (hg : I g) :
    Runs (l.foldlM step (loc g)) (put g) (l.foldlM f g) (fun g' => (put g', loc g')) := by
  induction l generalizing g with
  | nil => exact rfl
  | cons i l ih =>
    rw [List.foldlM_cons, List.foldlM_cons]
    refine runs_bind (h g i (by simp) hg) fun d hd => ?_
    exact ih (fun g' i' hi' => hI g' i' (by simp [hi'])) (fun g' i' hi' => h g' i' (by simp [hi'])) d
      (hI g i (by simp) hg d hd)

/-! ### Attributes that never change -/

/-- `x` never changes the part `π` of the attributes, whatever happens. -/
def Keeps (π : σ → ρ) (x : Meth σ β) : Prop := ∀ s, π (x s).1 = π s

variable {π : σ → ρ}

theorem keeps_pure (b : β) : Keeps π (pure b : Meth σ β) := fun _ => rfl
theorem keeps_lift (r : Except PyErr β) : Keeps π (lift r : Meth σ β) := fun _ => rfl
theorem keeps_fail (e : PyErr) : Keeps π (fail e : Meth σ β) := fun _ => rfl
theorem keeps_param (f : σ → β) : Keeps π (param f) := fun _ => rfl
theorem keeps_attr (f : σ → Option β) : Keeps π (attr f) := fun s => by unfold attr; split <;> rfl
theorem keeps_notNone (f : σ → Option β) : Keeps π (notNone f) := fun s => by unfold notNone; split <;> rfl
theorem keeps_write {f : σ → σ} (h : ∀ s, π (f s) = π s) : Keeps π (write f) := h

theorem keeps_bind {x : Meth σ β} {f : β → Meth σ γ} (hx : Keeps π x) (hf : ∀ b, Keeps π (f b)) : Keeps π (x >>= f) := by
  intro s
  show π (match x s with | (s', .ok b) => f b s' | (s', .error e) => (s', .error e)).1 = _
  have := hx s
  rcases h : x s with ⟨s', r⟩
  rw [h] at this
  cases r with
  | error e => exact this
  | ok b => exact (hf b s').trans this

theorem keeps_foldlM {lam : Type} {step : lam → ι → Meth σ lam} (h : ∀ a i, Keeps π (step a i)) (l : List ι) (a : lam) :
    Keeps π (l.foldlM step a) := by
  induction l generalizing a with
  | nil => exact keeps_pure a
  | cons i l ih => rw [List.foldlM_cons]; exact keeps_bind (h a i) ih

/-- A history of calls keeps what every call keeps. -/
theorem keeps_history {call : γ → Meth σ β} (h : ∀ c, Keeps π (call c)) (calls : List γ) (s : σ) :
    π (history call calls s) = π s := by
  unfold history
  induction calls generalizing s with
  | nil => rfl
  | cons c calls ih => rw [List.foldl_cons, ih, h c s]

end Meth

/-- Closes the goals that say that an attribute is never written. -/
macro "keeps" : tactic => `(tactic|
  repeat' first
    | exact keeps_pure _
    | exact keeps_lift _
    | exact keeps_fail _
    | exact keeps_param _
    | exact keeps_attr _
    | exact keeps_notNone _
    | exact keeps_write fun _ => rfl
    | (refine keeps_foldlM (fun _ _ => ?_) _ _)
    | (refine keeps_bind ?_ fun _ => ?_)
    | assumption
    | split)

end Verif

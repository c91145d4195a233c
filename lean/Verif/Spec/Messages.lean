import Mathlib.Algebra.BigOperators.Group.Finset.Basic
import Mathlib.Order.Bounds.Basic
import Mathlib.Algebra.Order.Field.Basic
import Verif.Spec.Affinity
import Verif.Model.Messages

/-
The messages of affinity propagation (Frey & Dueck, Science 2007), with damping 1/2. Specification
vocabulary: similarities `s`, availabilities `a` and responsibilities `r`
are functions of two positions below `n`.
-/

namespace Verif

section
variable {κ : Type} [Field κ] [LinearOrder κ]

/-- `a', r'` are the damped messages that follow `a, r`. -/
structure FreyDueck (n : Nat) (s a r a' r' : Nat → Nat → κ) : Prop where
  /-- `r(i,k) ← s(i,k) - max_{k' ≠ k} (a(i,k') + s(i,k'))` -/
  resp : ∀ i < n, ∀ k < n, ∃ y, IsGreatest {v | ∃ k' < n, k' ≠ k ∧ v = a i k' + s i k'} y ∧
    r' i k = (r i k + (s i k - y)) / 2
  /-- `a(i,k) ← min(0, r(k,k) + Σ_{i' ∉ {i,k}} max(0, r(i',k)))` -/
  avail : ∀ i < n, ∀ k < n, i ≠ k →
    a' i k = (a i k + min 0 (r' k k + ∑ j ∈ (Finset.range n).filter (fun j => j ≠ i ∧ j ≠ k), max 0 (r' j k))) / 2
  /-- `a(k,k) ← Σ_{i' ≠ k} max(0, r(i',k))` -/
  self : ∀ k < n, a' k k = (a k k + ∑ j ∈ (Finset.range n).filter (fun j => j ≠ k), max 0 (r' j k)) / 2

/-- The similarity of two managed IDs after the noise of line 316: `z` are the random numbers. -/
def NoisySimilarity {α V : Type} [LinearOrder α] (dist : V → V → κ) (eps tiny : κ) (z : Nat → Nat → κ) (m : Manager α)
    (vectors : Dict α V) (x y : α) (s : κ) : Prop :=
  ∃ i j v w, m.managed[i]? = some x ∧ m.managed[j]? = some y ∧ dget? vectors x = some v ∧ dget? vectors y = some w ∧
    s = -dist v w + (eps * -dist v w + tiny * 100) * z i j

/-- The similarity of two groups of IDs: that of their most similar members. -/
def GroupSimilarity {α V : Type} [LinearOrder α] (dist : V → V → κ) (eps tiny : κ) (z : Nat → Nat → κ) (m : Manager α)
    (vectors : Dict α V) (c d : List α) (s : κ) : Prop :=
  IsGreatest {s | ∃ x ∈ c, ∃ y ∈ d, NoisySimilarity dist eps tiny z m vectors x y s} s

/-- The median of a list: the mean of the two middle entries of the sorted list (for an odd length
these are the same entry). -/
def IsMedian (l : List κ) (u : κ) : Prop :=
  ∃ s : List κ, s.Perm l ∧ s.Pairwise (· ≤ ·) ∧
    ∃ a b, s[(s.length - 1) / 2]? = some a ∧ s[s.length / 2]? = some b ∧ u = (a + b) / 2

/-- The preference in absolute mode: the median of the similarities of all pairs of components. -/
def ClosurePreference {α V : Type} [LinearOrder α] (dist : V → V → κ) (eps tiny : κ) (z : Nat → Nat → κ) (m : Manager α)
    (vectors : Dict α V) (u : κ) : Prop :=
  ∃ W : Mat κ, Square m.components.length W ∧
    (∀ (a b : Nat) (c d : List α), m.components[a]? = some c → m.components[b]? = some d →
      ∃ s, mget? W a b = some s ∧ GroupSimilarity dist eps tiny z m vectors c d s) ∧ IsMedian W.flatten u

/-- Three components of which `A` and `B` are closest to each other: `u` and `q` are their two
similarities, all other similarities between components are smaller, those within greater. -/
structure ClosestGroups {α V : Type} [LinearOrder α] (dist : V → V → κ) (eps tiny : κ) (z : Nat → Nat → κ) (m : Manager α)
    (vectors : Dict α V) (A B C : List α) (u q : κ) : Prop where
  perm : m.components.Perm [A, B, C]
  forth : GroupSimilarity dist eps tiny z m vectors A B u
  back : GroupSimilarity dist eps tiny z m vectors B A q
  le : u ≤ q
  far : ∀ s, GroupSimilarity dist eps tiny z m vectors A C s ∨ GroupSimilarity dist eps tiny z m vectors C A s ∨
    GroupSimilarity dist eps tiny z m vectors B C s ∨ GroupSimilarity dist eps tiny z m vectors C B s → s < u
  near : ∀ X ∈ [A, B, C], ∀ s, GroupSimilarity dist eps tiny z m vectors X X s → q < s

end

end Verif

import Verif.Spec.Clustering
import Verif.Model.Hierarchical

/-
Specification vocabulary for the dendrogram of the hierarchical clustering.
-/

namespace Verif

variable {α V δ : Type} [LinearOrder α] [LinearOrder δ]

/-- `c` is a child of `i`. -/
def Child (st : Dict Nat (HCluster α V)) (i c : Nat) : Prop := ∃ n, dget? st i = some n ∧ c ∈ n.children

/-- `j` is reached from `i` by `k` steps from parent to child. -/
inductive Descends (st : Dict Nat (HCluster α V)) : Nat → Nat → Nat → Prop
  | refl {i} : Descends st i 0 i
  | step {i c k j} : Child st i c → Descends st c k j → Descends st i (k + 1) j

/-- The members of a stored cluster. -/
def membersOf (st : Dict Nat (HCluster α V)) (i : Nat) : List α :=
  match dget? st i with
  | some n => n.members
  | none => []

/-- The stored clusters form a tree with the given root, whose leaves are the connected components
of the manager. -/
structure Dendrogram (m : Manager α) (root : Nat) (st : Dict Nat (HCluster α V)) : Prop where
  /-- cluster IDs are unique -/
  nodup : (dkeys st).Nodup
  /-- the members of the root are the managed IDs, once each -/
  root_members : root ∈ dkeys st ∧ (membersOf st root).Perm m.managed
  /-- every stored cluster is in the tree -/
  connected : ∀ i ∈ dkeys st, ∃ k, Descends st root k i
  /-- the children are stored clusters, listed once, and have no other parent; the root has none -/
  children : ∀ i n, dget? st i = some n → n.children.Nodup ∧ ∀ c ∈ n.children, c ∈ dkeys st ∧ c ≠ root
  parent : ∀ i j c, Child st i c → Child st j c → i = j
  /-- the members of an inner node are those of its (at least two) children, once each -/
  inner : ∀ i n, dget? st i = some n → n.children ≠ [] →
    2 ≤ n.children.length ∧ n.members = n.children.flatMap (membersOf st) ∧ n.members.Nodup
  /-- the leaves are the connected components -/
  leaves : ∀ xs, (∃ i n, dget? st i = some n ∧ n.children = [] ∧ n.members = xs) ↔ xs ∈ m.components
  /-- the inverse depth is the height -/
  height : ∀ i n, dget? st i = some n →
    (∃ j, Descends st i n.depth j) ∧ ∀ k j, Descends st i k j → k ≤ n.depth
  /-- no cannot-link inside a node other than the root -/
  separated : ∀ i ∈ dkeys st, i ≠ root → ∀ x ∈ membersOf st i, ∀ y ∈ membersOf st i,
    m.getInferred x y ≠ .ok (some .cannotLink)
  /-- only the root may have more than two children; then there is a cannot-link between any two of them -/
  wide : ∀ i n, dget? st i = some n → n.children.length ≤ 2 ∨
    (i = root ∧ n.children.Pairwise fun c d => ∃ x ∈ membersOf st c, ∃ y ∈ membersOf st d,
      m.getInferred x y = .ok (some .cannotLink))
  /-- leaves are at iteration 0, inner nodes at later iterations -/
  iterations : ∀ i n, dget? st i = some n → (n.iteration = 0 ↔ n.children = [])

/-- What the linkage distance between two lists of IDs is. -/
def LinkageIs (env : HierEnv V δ) (link : Linkage) (vectors : Dict α V) (xs ys : List α) (d : δ) : Prop :=
  match link with
  | .complete => (∃ x ∈ xs, ∃ y ∈ ys, ∃ v w, dget? vectors x = some v ∧ dget? vectors y = some w ∧ d = env.metric v w) ∧
      ∀ x ∈ xs, ∀ y ∈ ys, ∀ v w, dget? vectors x = some v → dget? vectors y = some w → env.metric v w ≤ d
  | .single => (∃ x ∈ xs, ∃ y ∈ ys, ∃ v w, dget? vectors x = some v ∧ dget? vectors y = some w ∧ d = env.metric v w) ∧
      ∀ x ∈ xs, ∀ y ∈ ys, ∀ v w, dget? vectors x = some v → dget? vectors y = some w → d ≤ env.metric v w
  | .average => ∃ vs ws, List.Forall₂ (fun x v => dget? vectors x = some v) xs vs ∧
      List.Forall₂ (fun y w => dget? vectors y = some w) ys ws ∧ d = env.metric (env.mean vs) (env.mean ws)
  | .ward => ∃ ds, List.Forall₂ (fun (p : α × α) e => ∃ v w, dget? vectors p.1 = some v ∧ dget? vectors p.2 = some w ∧
      e = env.metric v w) (laterPairs (xs ++ ys)) ds ∧ d = env.ward ds xs.length ys.length

/-- There is a cannot-link between two lists of IDs. -/
def Opposed (m : Manager α) (xs ys : List α) : Prop := ∃ x ∈ xs, ∃ y ∈ ys, CannotLinked m x y

/-- When the cluster `i` was created (IDs are given in order), `j` was not yet merged. -/
def Alive (st : Dict Nat (HCluster α V)) (i j : Nat) : Prop := j < i ∧ ∀ k, k < i → ¬ Child st k j

/-- `i` is the merge of the two closest clusters that existed when it was created: among the pairs
without a cannot-link, one of minimal distance, and of minimal size among those. -/
def ClosestMerge (env : HierEnv V δ) (link : Linkage) (m : Manager α) (vectors : Dict α V)
    (st : Dict Nat (HCluster α V)) (i : Nat) (n : HCluster α V) : Prop :=
  ∃ a b, n.children = [a, b] ∧ a < b ∧ Alive st i a ∧ Alive st i b ∧ ¬ Opposed m (membersOf st a) (membersOf st b) ∧
    ∃ d, LinkageIs env link vectors (membersOf st a) (membersOf st b) d ∧
      ∀ c e, Alive st i c → Alive st i e → c < e → ¬ Opposed m (membersOf st c) (membersOf st e) →
        ∃ d', LinkageIs env link vectors (membersOf st c) (membersOf st e) d' ∧
          (d < d' ∨ (d = d' ∧ (membersOf st a).length + (membersOf st b).length ≤
            (membersOf st c).length + (membersOf st e).length))

/-- `i` is the merge of all the clusters that existed when it was created, any two of them with a
cannot-link between them. -/
def ForcedMerge (m : Manager α) (st : Dict Nat (HCluster α V)) (i : Nat) (n : HCluster α V) : Prop :=
  (∀ j, j ∈ n.children ↔ Alive st i j) ∧ n.children.Pairwise fun c d => Opposed m (membersOf st c) (membersOf st d)

/-- The cluster `i` is the merge of two clusters without a cannot-link between them, at distance `d`. -/
def MergedAt (env : HierEnv V δ) (link : Linkage) (m : Manager α) (vectors : Dict α V) (st : Dict Nat (HCluster α V))
    (i : Nat) (d : δ) : Prop :=
  ∃ n a b, dget? st i = some n ∧ n.children = [a, b] ∧ ¬ Opposed m (membersOf st a) (membersOf st b) ∧
    LinkageIs env link vectors (membersOf st a) (membersOf st b) d

/-- The object after some calls; the flag tells whether a call of `cluster` returned. -/
inductive HHistory (env : HierEnv V δ) : HObject α V → Bool → Prop
  | init {linkage o} : HObject.init linkage = .ok o → HHistory env o false
  | cluster {o b m vectors nb} : HHistory env o b → Reachable m →
      HHistory env (o.cluster env m vectors nb).1 (b || (o.cluster env m vectors nb).2.isOk)

end Verif

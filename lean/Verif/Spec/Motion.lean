import Verif.Model.Motion

/-!
Specifications for motions, in terms of samples and times only.
-/

namespace Verif.Spec

variable {K : Type} [Field K] [LinearOrder K]

/-- Consecutive entries differ by `d`. -/
def Uniform (d : K) (t : List K) : Prop :=
  ∀ (i : Nat) (a b : K), t[i]? = some a → t[i + 1]? = some b → b - a = d

/-- The time column of a record. -/
def times (x : List (K × K)) : List K := x.map Prod.fst

/-- The value column of a record. -/
def vals (x : List (K × K)) : List K := x.map Prod.snd

/-- Entries never decrease. -/
def NonDecr (l : List K) : Prop :=
  ∀ (i j : Nat) (a b : K), i ≤ j → l[i]? = some a → l[j]? = some b → a ≤ b

/-- `p` is the largest absolute value in `l`. -/
def IsPeak (p : K) (l : List K) : Prop := (∃ x ∈ l, |x| = p) ∧ ∀ x ∈ l, |x| ≤ p

end Verif.Spec

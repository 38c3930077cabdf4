import Verif.Model.Fit

/-!
Model of the genetic search of `ga_optimization` with the DEAP package (helper_site_response.py L2730-2811).

DEAP (`eaSimple`, `selTournament`, `cxSimulatedBinaryBounded`, `mutPolynomialBounded`, `HallOfFame`) is not part of the
repository; its random choices are an arbitrary oracle.  Whatever the crossover and the mutation compute, DEAP cuts it to the
bounds it was given; a child is therefore a selected parent some of whose genes are replaced by numbers cut to the bounds.
NaN losses and statistics printed by DEAP on the console are not modelled.
-/

namespace Verif

/-- The random choices: draws from [0, 1] for the first population, and for every generation and child the selected parent and
the new value, if any, of every gene. -/
structure GaOracle where
  draw : Nat → Nat → ℝ
  parent : Nat → Nat → Nat
  gene : Nat → Nat → Nat → Option ℝ

/-- helper_site_response.py L2741-2748, L2760-2769, L2790: the first population (`random.uniform(a, b)` is
`a + (b - a) * random()`). -/
def gaInit (o : GaOracle) (lo hi : ℝ) (n pop : Nat) : List (List ℝ) :=
  (List.range pop).map fun j => (List.range n).map fun i => lo + (hi - lo) * o.draw j i

/-- helper_site_response.py L2771-2786: selection, crossover and mutation of generation `g`, with the bounds registered. -/
noncomputable def gaOffspring (o : GaOracle) (lo hi : ℝ) (g : Nat) (pop : List (List ℝ)) : List (List ℝ) :=
  (List.range pop.length).map fun j =>
    (pop.getD (o.parent g j % pop.length) []).mapIdx fun i x =>
      match o.gene g j i with
      | none => x
      | some y => min (max y lo) hi

/-- helper_site_response.py L2770: the losses of a population. -/
def gaEval (loss : List ℝ → Except PyErr ℝ) (pop : List (List ℝ)) : Except PyErr (List (List ℝ × ℝ)) :=
  pop.mapM fun p => (loss p).map fun v => (p, v)

/-- helper_site_response.py L2791: the hall of fame with one place takes a newcomer that is better. -/
noncomputable def gaFame (best : Option (List ℝ × ℝ)) (l : List (List ℝ × ℝ)) : Option (List ℝ × ℝ) :=
  l.foldl (fun b q =>
    match b with
    | none => some q
    | some w => if q.2 < w.2 then some q else some w) best

/-- helper_site_response.py L2798-2807: the generations. -/
noncomputable def gaLoop (o : GaOracle) (loss : List ℝ → Except PyErr ℝ) (lo hi : ℝ) :
    Nat → Nat → List (List ℝ) → Option (List ℝ × ℝ) → Except PyErr (Option (List ℝ × ℝ))
  | 0, _, _, best => .ok best
  | k + 1, g, pop, best =>
    match gaEval loss (gaOffspring o lo hi g pop) with
    | .error e => .error e
    | .ok l => gaLoop o loss lo hi k (g + 1) (gaOffspring o lo hi g pop) (gaFame best l)

/-- helper_site_response.py L2730-2811: the search.  `1.0 / n_param` raises for no parameters; for no individuals the
statistics of DEAP raise ValueError (`np.min` of nothing). -/
noncomputable def gaDeap (o : GaOracle) (loss : List ℝ → Except PyErr ℝ) (n : Nat) (lo hi : ℝ) (pop gens : Nat) :
    Except PyErr (List ℝ) :=
  if n = 0 then .error .zeroDivision
  else if pop = 0 then .error .valueError
  else
    match gaEval loss (gaInit o lo hi n pop) with
    | .error e => .error e
    | .ok l =>
      match gaLoop o loss lo hi gens 1 (gaInit o lo hi n pop) (gaFame none l) with
      | .error e => .error e
      | .ok none => .error .indexError
      | .ok (some b) => .ok b.1

end Verif

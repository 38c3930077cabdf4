import Verif.Model.FloatCode

/-!
Numerical integration and differentiation of a record in doubles (Model/Float.lean).
-/

namespace Verif

section
variable {K : Type} [Field K] [LinearOrder K] [FloorRing K]

/-- `np.cumsum` in doubles: one after the other (the sum starts with the first element itself: adding it to 0 does not round). -/
def fcumsumFrom (s : K) : List K → List K
  | [] => []
  | a :: as => fadd s a :: fcumsumFrom (fadd s a) as

/-- `np.diff` in doubles. -/
def fdiff : List K → List K
  | [] => []
  | [_] => []
  | x :: y :: xs => fsub y x :: fdiff (y :: xs)

/-- helper_site_response.py L375-405 `num_int` in doubles. -/
def fNumInt (x : Rec K) : Except PyErr (Rec K × Rec K) :=
  match x with
  | r :: s :: _ =>
    let dt := fsub s.1 r.1
    let v := (fcumsumFrom 0 (x.map Prod.snd)).map fun w => fmul w dt
    let u := (fcumsumFrom 0 v).map fun w => fmul w dt
    .ok ((x.map Prod.fst).zip v, (x.map Prod.fst).zip u)
  | _ => .error .indexError

/-- helper_site_response.py L408-432 `num_diff` in doubles; a difference of times that is 0 makes numpy divide by zero. -/
def fNumDiff (x : Rec K) : Except PyErr (Rec K) :=
  if 0 ∈ fdiff (x.map Prod.fst) then .error .nonFinite
  else colStack (x.map Prod.fst) (0 :: List.zipWith fdiv (fdiff (x.map Prod.snd)) (fdiff (x.map Prod.fst)))

end

end Verif

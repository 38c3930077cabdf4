import Verif.Model.Profile

/-!
Model of `class_Vs_profile.py` (constructor, `truncate`, unit outputs) and of
`helper_generic.check_Vs_profile_format`.

Arrays live in an explicit store because the constructor keeps views of the
caller's array and `truncate` writes through views of the object's own array.
-/

namespace Verif

variable {K : Type} [Field K] [LinearOrder K] [FloorRing K]

/-- One row of a five-column Vs profile (class_Vs_profile.py L19-58 docstring). -/
structure Row (K : Type*) where
  thk : K
  vs : K
  xi : K
  rho : K
  mat : K
  deriving DecidableEq, Repr

/-- The (thickness, Vs) part of a row. -/
def Row.tv (r : Row K) : K × K := (r.thk, r.vs)

/-- A numpy array holding a profile: two or five columns. -/
inductive Cell (K : Type*) where
  | two (rows : List (K × K))
  | five (rows : List (Row K))
  deriving DecidableEq, Repr

/-- First column (`data_[:, 0]`). -/
def Cell.thk : Cell K → List K
  | .two rows => rows.map Prod.fst
  | .five rows => rows.map Row.thk

/-- Second column (`data_[:, 1]`). -/
def Cell.vs : Cell K → List K
  | .two rows => rows.map Prod.snd
  | .five rows => rows.map Row.vs

/-- helper_generic.py L494-519 `is_int` on a float. -/
def isInt (x : K) : Bool := decide ((⌊x⌋ : K) = x)

/-- helper_generic.py L455-466: thickness and Vs columns.  `thk[-1]` of an empty
array raises IndexError (after the vacuous check of `thk[:-1]`). -/
def checkThkVs (thk vs : List K) : Except PyErr Unit :=
  if thk.dropLast.any (fun t => decide (t ≤ 0)) then .error .valueError
  else match thk.getLast? with
    | none => .error .indexError
    | some t =>
      if t < 0 then .error .valueError
      else if vs.any (fun v => decide (v ≤ 0)) then .error .valueError
      else .ok ()

/-- helper_generic.py L422-491 `check_Vs_profile_format` for a finite numeric 2D
array with two or five columns.  The rejected argument kinds (not an array:
TypeError; non-numeric, nan/inf, not 2D, other column counts: ValueError) are in
`checkVsArg`. -/
def checkVsFormat : Cell K → Except PyErr Unit
  | .two rows => checkThkVs (rows.map Prod.fst) (rows.map Prod.snd)
  | .five rows => do
    checkThkVs (rows.map Row.thk) (rows.map Row.vs)
    if rows.any (fun r => decide (r.xi ≤ 0)) || rows.any (fun r => decide (r.rho ≤ 0)) then
      .error .valueError
    else if !rows.all (fun r => isInt r.mat) then .error .valueError
    else if rows.dropLast.any (fun r => decide (r.mat ≤ 0)) then .error .valueError
    else match rows.getLast? with
      | none => .error .indexError
      | some r => if r.mat < 0 then .error .valueError else .ok ()

/-- Kinds of `data` arguments (helper_generic.py L439-453). -/
inductive VsArg (K : Type*) where
  | notArray
  | nonNumeric
  | nonFiniteArr
  | not2D
  | otherCols
  | arr (c : Cell K)

/-- helper_generic.py L422-491 on an arbitrary argument. -/
def checkVsArg : VsArg K → Except PyErr Unit
  | .notArray => .error .typeError
  | .nonNumeric => .error .valueError
  | .nonFiniteArr => .error .valueError
  | .not2D => .error .valueError
  | .otherCols => .error .valueError
  | .arr c => checkVsFormat c

/-- helper_site_response.py L792-824, damping ratio of one Vs value by
`formula_type`.  Formula 2: `Qs == 0` replaced by 0.5 (L813).  Any other
formula type silently gives 0 (L788). -/
def xiOf (formula : Int) (v : K) : K :=
  if formula = 1 then
    if v < 250 then 5 / 100 else if v < 750 then 2 / 100 else 1 / 100
  else if formula = 2 then
    let w := v / 1000
    let q := 105 / 10 - 16 * w + 153 * w ^ 2 - 103 * w ^ 3 + 347 / 10 * w ^ 4
      - 529 / 100 * w ^ 5 + 31 / 100 * w ^ 6
    1 / (2 * (if q = 0 then 1 / 2 else q))
  else if formula = 3 then
    1 / (2 * (if v ≤ 1000 then 6 / 100 * v else if v ≤ 2000 then 14 / 100 * v else 16 / 100 * v))
  else 0

/-- helper_site_response.py L826-832, density of one Vs value. -/
def rhoOf (v : K) : K := if v < 200 then 1600 else if v < 800 then 1800 else 2000

/-- helper_site_response.py L743-834 `get_xi_rho`. -/
def getXiRho (vs : List K) (formula : Int) : List K × List K :=
  (vs.map (xiOf formula), vs.map rhoOf)

/-- class_Vs_profile.py L131-134, material numbers of a two-column profile:
1..n, or 1..n-1 followed by 0 if the last thickness is 0. -/
def autoMaterial (thk : List K) : List K :=
  if thk.getLast? = some 0 then
    (List.range (thk.length - 1)).map (fun i : Nat => (i : K) + 1) ++ [0]
  else (List.range thk.length).map (fun i : Nat => (i : K) + 1)

/-- class_Vs_profile.py L130-144: `np.column_stack((thk, vs, xi, rho, material_number))`. -/
def expandTwo (rows : List (K × K)) (formula : Int) : List (Row K) :=
  List.zipWith (fun r m => ⟨r.1, r.2, xiOf formula r.2, rhoOf r.2, m⟩) rows
    (autoMaterial (rows.map Prod.fst))

/-- `damping_unit` argument. -/
inductive DampUnit where | one | pct | bad
  deriving DecidableEq
/-- `density_unit` argument (`kg/m^3` or `kg/m3`; `g/cm^3` or `g/cm3`; anything else). -/
inductive DensUnit where | si | gcc | bad
  deriving DecidableEq

/-- class_Vs_profile.py L165-169, the in-place unit conversion of a row. -/
def convertRow (du : DampUnit) (de : DensUnit) (r : Row K) : Row K :=
  { r with
    rho := if de = .gcc then r.rho * 1000 else r.rho
    xi := if du = .pct then r.xi / 100 else r.xi }

/-- class_Vs_profile.py L180-183, the appended half-space row. -/
def halfspaceOf (r : Row K) : Row K := { r with thk := 0, mat := 0 }

/-- The store: array contents by address. -/
abbrev Store (K : Type*) := List (Cell K)

/-- A `Vs_Profile` object (class_Vs_profile.py L187-197): `prof` is the address of
`self.vs_profile`; `thkAddr` the address of the array of which `self._thk` is the first
column (the caller's array, or the own one if a half space was added). -/
structure VsObj (K : Type*) where
  prof : Nat
  thkAddr : Nat
  zMax : K
  nLayer : Nat
  vs30 : K
  deriving DecidableEq, Repr

/-- class_Vs_profile.py L187-197: attributes computed from the final columns. -/
def finishObj (full : List (Row K)) (prof thkAddr : Nat) (thk : List K) : Except PyErr (VsObj K) := do
  let v ← calcVs30 (full.map Row.tv) 1
  return { prof := prof, thkAddr := thkAddr, zMax := thk.sum
           nLayer := if thk.getLast? = some 0 then thk.length - 1 else thk.length
           vs30 := v }

/-- class_Vs_profile.py L94-197 `Vs_Profile.__init__` on an array at address `a`.
Reading from a file is in `Model/LoadTxt`, console warnings are in `Model/Console`;
the attributes `damping_unit`/`density_unit` are left out.  The new array `full_data` is allocated at the end
of the store; for five columns the caller's array is converted in place *before*
it is copied (L165-172). -/
def mkProfile (σ : Store K) (a : Nat) (du : DampUnit) (de : DensUnit) (addHalf : Bool)
    (formula : Int) : Except PyErr (VsObj K × Store K) := do
  match σ[a]? with
  | none => .error .other
  | some cell =>
    checkVsFormat cell
    if du = .bad then .error .valueError
    else if de = .bad then .error .valueError
    else
      match cell with
      | .two rows =>
        let full := expandTwo rows formula
        let thk := rows.map Prod.fst
        if addHalf ∧ thk.getLast? ≠ some 0 then
          let full' := full ++ (full.getLast?.map halfspaceOf).toList
          let o ← finishObj full' σ.length σ.length (full'.map Row.thk)
          return (o, σ ++ [.five full'])
        else
          let o ← finishObj full σ.length a thk
          return (o, σ ++ [.five full])
      | .five rows =>
        let full := rows.map (convertRow du de)
        let σ' := σ.set a (.five full)
        let thk := full.map Row.thk
        if addHalf ∧ thk.getLast? ≠ some 0 then
          let full' := full ++ (full.getLast?.map halfspaceOf).toList
          let o ← finishObj full' σ'.length σ'.length (full'.map Row.thk)
          return (o, σ' ++ [.five full'])
        else
          let o ← finishObj full σ'.length a thk
          return (o, σ' ++ [.five full])

/-- class_Vs_profile.py L415-429, the for-else loop of `truncate`.  `thks` is
`self._thk`, `rows` is `self.vs_profile`; the appended rows are views, so writing
`last_row[0]` also changes `self.vs_profile`.  Returns (`profile_`, the rows of
`self.vs_profile` after those in `profile_`); the new contents of
`self.vs_profile` are the concatenation of both. -/
def truncLoop (depth : K) : (total : K) → List K → List (Row K) → List (Row K) × List (Row K)
  | _, [], rows => ([], rows)
  | _, _, [] => ([], [])
  | total, [t], r :: rs =>
    if depth ≤ total + t then ([{ r with thk := depth - total }], rs)
    else ([{ r with thk := depth + r.thk - (total + t) }], rs)
  | total, t :: t' :: ts, r :: rs =>
    if depth ≤ total + t then ([{ r with thk := depth - total }], rs)
    else
      let res := truncLoop depth (total + t) (t' :: ts) rs
      (r :: res.1, res.2)

/-- class_Vs_profile.py L440-441: a material number 0 of the last soil row becomes
`max + 1` (`np.max` includes the appended bedrock row, whose number is 0). -/
def fixMaterial (prof : List (Row K)) : List (Row K) :=
  match prof.getLast? with
  | none => []
  | some r =>
    if r.mat = 0 then
      prof.dropLast ++ [{ r with mat := (prof.map Row.mat).foldr max 0 + 1 }]
    else prof

/-- class_Vs_profile.py L431-435: the appended bedrock row. -/
def bedrockRow (Vs : K) : Row K := ⟨0, Vs, xiOf 3 Vs, rhoOf Vs, 0⟩

/-- class_Vs_profile.py L384-443 `Vs_Profile.truncate`.  `depth` and `Vs` may be
`None`. -/
def truncate (σ : Store K) (o : VsObj K) (depth Vs : Option K) : Except PyErr (VsObj K × Store K) :=
  match depth, Vs with
  | none, _ => .error .valueError
  | some d, vs =>
    if d ≤ 0 then .error .valueError
    else match vs with
      | none => .error .valueError
      | some v =>
        if v ≤ 0 then .error .valueError
        else match σ[o.prof]?, σ[o.thkAddr]? with
          | some (.five rows), some tc =>
            let res := truncLoop d 0 tc.thk rows
            let σ1 := σ.set o.prof (.five (res.1 ++ res.2))
            let profile_ := fixMaterial res.1 ++ [bedrockRow v]
            -- `np.array(profile_)` is a new array, then `Vs_Profile(profile_)`
            mkProfile (σ1 ++ [.five profile_]) σ1.length .one .si false 3
          | _, _ => .error .other

/-- class_Vs_profile.py L642-655 `get_slowness`. -/
def getSlowness (rows : List (Row K)) : List (Row K) :=
  rows.map fun r => ⟨r.thk, 1 / r.vs, 1, 1, 1⟩

/-- class_Vs_profile.py L657-669 `output_as_km_unit` (works on a copy). -/
def outputKm (rows : List (Row K)) : List (Row K) :=
  rows.map fun r => { r with thk := r.thk / 1000, vs := r.vs / 1000 }

/-- Kind of the `precision` argument of `to_txt`. -/
inductive PrecArg where
  | list (n : Nat)
  | tuple (n : Nat)

/-- class_Vs_profile.py L676-714 `to_txt`, the argument checks; the default of
`precision` is a 5-tuple (L680-686). -/
def toTxtCheck : PrecArg → Except PyErr Unit
  | .tuple _ => .error .typeError
  | .list n => if n ≠ 5 then .error .valueError else .ok ()

end Verif

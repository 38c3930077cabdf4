import Verif.Model.Transfer
import Mathlib.Analysis.Calculus.Deriv.Basic

/-!
Physical specification of one-dimensional linear site response, independent of the
matrix recursions in the code: harmonic shear waves of angular frequency `w` (time
factor e^{iwt}), depth `z` downwards from the top of each layer.
-/

open Complex

namespace Verif.Spec

noncomputable section

/-- Complex shear modulus of a layer, ρ Vs² (1 + 2iξ). -/
def modulus (l : Lay) : ℂ := (l.rho : ℂ) * (l.vs : ℂ) ^ 2 * (1 + 2 * I * (l.xi : ℂ))

/-- A layer as the solvers expect it: positive velocity, density and damping. -/
def DampedLay (l : Lay) : Prop := 0 ≤ l.h ∧ 0 < l.vs ∧ 0 < l.rho ∧ 0 < l.xi

/-- Displacement of a layer as a function of depth below its top, and its depth
derivative (the shear strain). -/
structure Field where
  u : ℝ → ℂ
  du : ℝ → ℂ

/-- Equation of motion: modulus · u'' = -ρ w² u, with `du = u'`. -/
def Wave (w : ℝ) (l : Lay) (f : Field) : Prop :=
  ∀ z : ℝ, HasDerivAt f.u (f.du z) z ∧
    ∃ a : ℂ, HasDerivAt f.du a z ∧ modulus l * a = -((l.rho : ℂ) * (w : ℂ) ^ 2) * f.u z

/-- Interface between an upper and a lower layer: continuous displacement and shear
stress. -/
def Interface (l m : Lay) (f g : Field) : Prop :=
  f.u l.h = g.u 0 ∧ modulus l * f.du l.h = modulus m * g.du 0

/-- A harmonic motion of the layered column with a stress-free ground surface. -/
structure SiteResponse (w : ℝ) (ls : List Lay) (fs : List Field) : Prop where
  wave : List.Forall₂ (Wave w) ls fs
  surface : ∀ f, fs.head? = some f → f.du 0 = 0
  interfaces : ∀ (k : Nat) l m f g, ls[k]? = some l → ls[k + 1]? = some m →
    fs[k]? = some f → fs[k + 1]? = some g → Interface l m f g

/-- `k` is the wave number of layer `l`. -/
def WaveNumber (w : ℝ) (l : Lay) (k : ℂ) : Prop :=
  modulus l * k ^ 2 = (l.rho : ℂ) * (w : ℂ) ^ 2 ∧ 0 < k.re

/-- Amplitude at the top of a layer of the upgoing part of the wave
(`u = A e^{ikz} + B e^{-ikz}`, A upgoing). -/
def upgoing (k : ℂ) (f : Field) : ℂ := (f.u 0 + f.du 0 / (I * k)) / 2

end

end Verif.Spec

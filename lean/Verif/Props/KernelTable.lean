import Verif.Props.NonlinearOut
import Mathlib.Tactic.NormNum.OfScientific

/-!
C101, the table of the frequency-independent damping that is handed to the compiled nonlinear simulation.
-/

set_option linter.unusedSectionVars false
set_option linter.unusedVariables false

namespace Verif
variable {K : Type} [Field K] [LinearOrder K] [IsStrictOrderedRing K] [FloorRing K] {T : Type}
namespace Spec

/-- Liu and Archuleta (2006), table 1: relaxation times (s) and the coefficients `alpha` and `beta` of the weights of the
eight mechanisms. -/
def liuArchuleta (K : Type) [Field K] : List (K × K × K) :=
  [(1.72333e-3, 1.66958e-2, 8.98758e-2), (1.80701e-3, 3.81644e-2, 6.84635e-2), (5.38887e-3, 9.84666e-3, 9.67052e-2),
   (1.99322e-2, -1.36803e-2, 1.20172e-1), (8.49833e-2, -2.85125e-2, 1.30728e-1), (4.09335e-1, -5.37309e-2, 1.38746e-1),
   (2.05951, -6.65035e-2, 1.40705e-1), (13.2629, -1.33696e-1, 2.14647e-1)]

/-- Weight of a mechanism for the damping parameter `chi`. -/
def weight (chi : K) (m : K × K × K) : K := chi * (chi * m.2.1 + m.2.2)

end Spec
open Spec

/-- **C101** (damping table): in a run that returns the kernel found in `tabk.dat` the published relaxation times and
coefficients. -/
theorem C101_table {kern : Kernel K} {tf tfs : Rec K → Rec K → Except PyErr T} {i : NlIn K} {op : NlOpts} {anchor : Path}
    {rel : List String} {s s' : St (FC K)} {res : NlRes K T} (hw : WfFs s.fs)
    (h : nonlinearRun kern tf tfs i op anchor rel s = (.ok res, s')) :
    ∃ v outs, kern v = .ok outs ∧ v "tabk.dat" = some (.mat ((liuArchuleta K).map fun m => [m.1, m.2.1, m.2.2])) := by
  obtain ⟨c, g, x, v, outs, q, hc, hg, hx, hk, hv1, _⟩ := run_kernel hw h
  refine ⟨v, outs, hk, ?_⟩
  have hin := hv1 ("tabk.dat", .mat (tabkRows.map fun r => r.map fun (x : Int) => (x : K) / 10 ^ 8)) (by simp [nlFiles])
  refine hin.trans ?_
  simp only [tabkRows, liuArchuleta, List.map_cons, List.map_nil]
  norm_num

/-- **C101** (damping table): the relaxation times increase, and the weights are positive for every damping parameter
up to one, so that every mechanism dissipates energy and together they leave
at least 23 percent of the elastic stiffness. -/
theorem C101_weights (chi : K) (h0 : 0 < chi) (h1 : chi ≤ 1) :
    (liuArchuleta K).Pairwise (fun a b => a.1 < b.1) ∧ (∀ m ∈ liuArchuleta K, 0 < m.1 ∧ 0 < weight chi m) ∧
    ((liuArchuleta K).map (weight chi)).sum < 0.77 := by
  have e1 : (liuArchuleta K).Pairwise (fun a b => a.1 < b.1) := by
    simp only [liuArchuleta, List.pairwise_cons, List.mem_cons, List.not_mem_nil, or_false]
    norm_num
  refine ⟨e1, ?_, ?_⟩
  · intro m hm
    simp only [liuArchuleta, List.mem_cons, List.not_mem_nil, or_false] at hm
    unfold weight
    rcases hm with rfl | rfl | rfl | rfl | rfl | rfl | rfl | rfl <;>
      exact ⟨by norm_num, mul_pos h0 (by norm_num; nlinarith)⟩
  · simp only [liuArchuleta, weight, List.map_cons, List.map_nil, List.sum_cons, List.sum_nil]
    norm_num
    nlinarith [mul_nonneg h0.le (sub_nonneg.2 h1)]

example : weight (1 / 2 : ℚ) (1.80701e-3, 3.81644e-2, 6.84635e-2) = 0.04377285 := by norm_num [weight]

end Verif

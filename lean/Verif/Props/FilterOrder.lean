import Verif.Props.FilterResponse
import Verif.Props.Motion

/-!
C224: the order in which filters and integrations are applied to a motion does not matter.
-/

set_option linter.unusedSectionVars false
set_option linter.unusedVariables false

namespace Verif

open Spec (series numS denS times vals)

section
variable {K : Type} [Field K] [LinearOrder K] [IsStrictOrderedRing K]

theorem sos_app (a b : List (Sect K)) (x : List K) : sosfilt (a ++ b) x = sosfilt b (sosfilt a x) := by
  unfold sosfilt; rw [List.foldl_append]

/-- C224, sections: a filter does not depend on the order of its second-order sections. -/
theorem C224_sections {a b : List (Sect K)} (h : a.Perm b) (x : List K) : sosfilt a x = sosfilt b x := by
  refine (C103_transfer b x _).2 ⟨sosfilt_length a x, ?_⟩
  rw [← (h.map denS).prod_eq, ← (h.map numS).prod_eq]
  exact sos_series a x

theorem sos_comm (a b : List (Sect K)) (x : List K) : sosfilt a (sosfilt b x) = sosfilt b (sosfilt a x) := by
  rw [← sos_app, ← sos_app]
  exact C224_sections List.perm_append_comm x

theorem sect_cumsum (l : List K) : ∀ s : K, sectFrom ⟨1, 0, 0, -1, 0⟩ (s, 0) l = cumsumFrom s l := by
  induction l with
  | nil => intro s; rfl
  | cons a l ih =>
    intro s
    simp only [sectFrom, cumsumFrom]
    have e : (0 * a - -1 * (1 * a + s) + 0, 0 * a - 0 * (1 * a + s)) = (s + a, (0 : K)) := by
      ext <;> simp; ring
    rw [e, ih (s + a)]
    simp [add_comm]

theorem sos_cumsum (sos : List (Sect K)) (l : List K) : sosfilt sos (cumsum l) = cumsum (sosfilt sos l) := by
  have e : ∀ l : List K, cumsum l = sosfilt [⟨1, 0, 0, -1, 0⟩] l := fun l => (sect_cumsum l 0).symm
  rw [e, e, sos_comm]

theorem sect_mul (c : Sect K) (d : K) (l : List K) : ∀ z : K × K,
    sectFrom c (z.1 * d, z.2 * d) (l.map (· * d)) = (sectFrom c z l).map (· * d) := by
  induction l with
  | nil => intro z; rfl
  | cons a l ih =>
    intro z
    simp only [sectFrom, List.map_cons]
    rw [← ih]
    congr 1
    · ring
    · congr 1; ext <;> simp <;> ring

theorem sos_mul (d : K) (sos : List (Sect K)) : ∀ l : List K, sosfilt sos (l.map (· * d)) = (sosfilt sos l).map (· * d) := by
  induction sos with
  | nil => intro l; rfl
  | cons c sos ih =>
    intro l
    have e : ∀ x, sosfilt (c :: sos) x = sosfilt sos (sectFrom c (0, 0) x) := fun x => rfl
    have := sect_mul c d l (0, 0)
    simp only [zero_mul] at this
    rw [e, e, this, ih]

theorem dt_of_times {x y : Rec K} (h : times y = times x) : dtOf y = dtOf x := by
  match x, y, h with
  | [], [], _ => rfl
  | [_], [_], _ => rfl
  | p :: q :: x, r :: s :: y, h =>
    simp only [times, List.map_cons, List.cons.injEq] at h
    simp only [dtOf, h.1, h.2.1]
  | [], _ :: _, h => simp [times] at h
  | _ :: _, [], h => simp [times] at h
  | [_], _ :: _ :: _, h => simp [times] at h
  | _ :: _ :: _, [_], h => simp [times] at h

/-- C224, filters: whatever the two filters (low-pass, high-pass, band-pass, band-stop, of any orders and cut-off frequencies), applying them
in the opposite order gives the same motion; both orders fail or both succeed. -/
theorem C224_filters (design design' : Design K) (n n' : Nat) (ft ft' : FType) (cut cut' : Cut K) (x y z : Rec K)
    (h1 : filterKernel design n ft cut x = .ok y) (h2 : filterKernel design' n' ft' cut' y = .ok z) :
    ∃ w, filterKernel design' n' ft' cut' x = .ok w ∧ filterKernel design n ft cut w = .ok z := by
  rcases uses_filterKernel design n ft cut (times x) with ⟨e, he⟩ | ⟨a, ha⟩
  · rw [he x rfl] at h1; cases h1
  rcases uses_filterKernel design' n' ft' cut' (times x) with ⟨e, he⟩ | ⟨b, hb⟩
  · rw [ha x rfl] at h1
    cases h1
    have ht : times ((times x).zip (sosfilt a (vals x))) = times x := by
      rw [times, List.map_fst_zip (by rw [sosfilt_length]; simp [times, vals])]
    rw [he _ ht] at h2; cases h2
  have lx : ∀ s : List (Sect K), times ((times x).zip (sosfilt s (vals x))) = times x ∧
      vals ((times x).zip (sosfilt s (vals x))) = sosfilt s (vals x) := fun s =>
    ⟨by rw [times, List.map_fst_zip (by rw [sosfilt_length]; simp [times, vals])],
      by rw [vals, List.map_snd_zip (by rw [sosfilt_length]; simp [times, vals])]⟩
  rw [ha x rfl] at h1
  cases h1
  rw [hb _ (lx a).1, (lx a).1, (lx a).2] at h2
  cases h2
  refine ⟨_, hb x rfl, ?_⟩
  rw [ha _ (lx b).1, (lx b).1, (lx b).2, sos_comm]

/-- C224, integration: velocities and displacements of the filtered accelerations are the filtered velocities and displacements. -/
theorem C224_integration (design : Design K) (n : Nat) (ft : FType) (cut : Cut K) (x y v u : Rec K)
    (h : filterKernel design n ft cut x = .ok y) (hi : numInt x = .ok (v, u)) :
    ∃ v' u', numInt y = .ok (v', u') ∧ filterKernel design n ft cut v = .ok v' ∧ filterKernel design n ft cut u = .ok u' := by
  rcases uses_filterKernel design n ft cut (times x) with ⟨e, he⟩ | ⟨a, ha⟩
  · rw [he x rfl] at h; cases h
  rw [ha x rfl] at h
  cases h
  cases hd : dtOf x with
  | error e => unfold numInt at hi; rw [hd] at hi; simp only [Bind.bind, Except.bind] at hi; cases hi
  | ok d =>
  have clen : ∀ l : List K, ((cumsum l).map (· * d)).length = l.length := fun l => by
    rw [List.length_map, cumsum, cumsumFrom_length]
  have hx : ∀ l : List K, l.length = x.length → times ((times x).zip l) = times x ∧ vals ((times x).zip l) = l := fun l hl =>
    ⟨by rw [times, List.map_fst_zip (by simp [times, hl])], by rw [vals, List.map_snd_zip (by simp [times, hl])]⟩
  have hvx : (vals x).length = x.length := by simp [vals]
  rw [numInt_ok d x hd] at hi
  cases hi
  have hy := hx (sosfilt a (vals x)) (by rw [sosfilt_length, hvx])
  have hv := hx ((cumsum (vals x)).map (· * d)) (by rw [clen, hvx])
  have hu := hx ((cumsum ((cumsum (vals x)).map (· * d))).map (· * d)) (by rw [clen, clen, hvx])
  have hdy : dtOf ((times x).zip (sosfilt a (vals x))) = .ok d := by rw [dt_of_times hy.1, hd]
  refine ⟨_, _, numInt_ok d _ hdy, ?_, ?_⟩
  · rw [ha _ hv.1, hv.1, hv.2, hy.1, hy.2, sos_mul, sos_cumsum]
  · rw [ha _ hu.1, hu.1, hu.2, hy.1, hy.2, sos_mul, sos_cumsum, sos_mul, sos_cumsum]

end

/-- Two filters that change the record: low-pass of order 1 twice gives 0 0 ¼ ½ ¼; its integral is the filtered step. -/
example : filterKernel exButter 1 .lowpass (.num (1/4)) [(0, 0), (1, 0), (2, 1/2), (3, 1/2), (4, 0)]
      = .ok [(0, 0), (1, 0), (2, 1/4), (3, 1/2), (4, 1/4)] ∧
    filterKernel exButter 1 .lowpass (.num (1/4)) [(0, 0), (1, 0), (2, 1), (3, 1), (4, 1)]
      = .ok [(0, 0), (1, 0), (2, 1/2), (3, 1), (4, 1)] := by decide +kernel

end Verif

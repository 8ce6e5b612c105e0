import Verif.Proof.LazifyPlain
import Verif.Props.Lazify
/-!
# C96: `with lazify` around purely functional programs
-/
namespace Unpy.Props
open Unpy.Lazify Unpy.Lazify.Spec
open Unpy.Conts (Env Flow)
variable {β ω ε : Type}

/-- C96.  Let `G` be function definitions, whose bodies consist of `return` and `if`, and let `e` be an expression that plain Python
evaluates to `v`, with arguments evaluated before calls.  Then the program `def ...; def ...; x = e` in a `with lazify` block ends
normally, if there is enough stack, with `v` for the value of `x` (not a promise, and no promises in it), and no external function
is called.  The functions and `x` are variables of their own. -/
theorem C96_conservative (P : World β ω ε) (N : Nat) (G : List (Plain.Fun β)) (ρ : Env) (x : String) (e : Lazify.Ex β)
    (d : Nat) (v : Plain.Val β) (h : List (Option (Init β))) (w : ω) (a : Nat)
    (hv : Plain.value P G d e = some v) (hn : (G.map (·.name)).Nodup)
    (hG : ∀ f ∈ G, ∃ a, ρ f.name = some a ∧ a < h.length)
    (hi : ∀ x y a, ρ x = some a → ρ y = some a → x = y) (hx : ρ x = some a) (ha : a < h.length) :
    ∃ D₀, ∀ D, D₀ ≤ D → ∃ s' v', Lazify.run P N D ρ (trSs (Plain.program G x e)) (startI h w) = some (.ok .next, s') ∧
      s'.heap[a]? = some (some v') ∧ obsI v' = Plain.obs v ∧ s'.world.ext = w := by
  obtain ⟨D₀, s', v', h₁, h₂, h₃, h₄⟩ := Pure.program_run P N h w hv hn hG hi hx ha
  refine ⟨D₀, fun D hD => ?_⟩
  rcases Sim.run_sim P N D ρ (Plain.program G x e) (start h w) with ⟨s, hf⟩ | hr
  · rw [h₁ D hD] at hf
    cases hf
  · rw [h₁ D hD, Sim.startI_eq] at hr
    refine ⟨Sim.τst s', Sim.τ v', hr, ?_, by rw [Sim.obs_τ, h₃], h₄⟩
    simp [Sim.τst, h₂]

section
open Lazify.Ex Lazify.St

/-- `def f(n, b): (if b: return g((n, b))[0]); return n + 1` and `def g(t): return (f(t[0] + 20, 0), g)` -/
def lazifyFuns : List (Plain.Fun Nat) :=
  [⟨"f", ["n", "b"], [ite (name "b") [.ret (sub (call (name "g") [tup [name "n", name "b"]]) (cst 0))] [],
      .ret (op 0 [name "n", cst 1])]⟩,
   ⟨"g", ["t"], [.ret (tup [call (name "f") [op 0 [sub (name "t") (cst 0), cst 20], cst 0], name "g"])]⟩]

/-- `(f(1, 5), lambda y: y, g((1, 2))[0] == 22)` -/
def lazifyExpr : Lazify.Ex Nat :=
  tup [call (name "f") [cst 1, cst 5], lam ["y"] none [] (name "y"),
    eq (sub (call (name "g") [tup [cst 1, cst 2]]) (cst 0)) (cst 22)]

/-- The hypotheses are met. -/
example : (Plain.value lazifyWorld lazifyFuns 6 lazifyExpr).map (fun v => (Plain.obs v).show) =
    some "(22, <function>, 1)" := by decide +kernel
example : lazifyRun (Plain.program lazifyFuns "x" lazifyExpr) = some ("ok", [], "(22, <function>, 1)") := by decide +kernel
example : (lazifyFuns.map (·.name)).Nodup ∧ (∀ f ∈ lazifyFuns, ∃ a, lazifyEnv f.name = some a ∧ a < lazifyInit.length) ∧
    (∃ a, lazifyEnv "x" = some a ∧ a < lazifyInit.length) :=
  ⟨by decide, by simp only [lazifyFuns, List.mem_cons, List.not_mem_nil, or_false]
                 rintro f (rfl | rfl)
                 exact ⟨1, by decide⟩
                 exact ⟨2, by decide⟩, 6, by decide⟩
example : ∀ x y a, lazifyEnv x = some a → lazifyEnv y = some a → x = y := by
  intro x y a hx hy
  simp only [lazifyEnv, List.idxOf?, List.findIdx?_eq_some_iff_getElem, beq_iff_eq] at hx hy
  exact hx.2.1.symm.trans hy.2.1

end

end Unpy.Props

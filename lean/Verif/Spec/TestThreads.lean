import Verif.Model.TestThreads
/-!
# What the counters should say
-/
namespace Unpy.TestThreads.Spec
open Unpy.TestThreads

/-- All tests in the code, in order. -/
def tests : Code → List Outcome
  | .done => []
  | .test o rest => o :: tests rest
  | .testset body rest => tests body ++ tests rest

/-- The tests of code that ends with the first one that does not pass, and before the first testset. -/
def firstTests : Code → List Outcome
  | .done => []
  | .test .passed rest => .passed :: firstTests rest
  | .test o _ => [o]
  | .testset _ _ => []

/-- How many of the tests count for this counter: all but the warnings as run, and each as what it is. -/
def tally (os : List Outcome) : Counter → Nat
  | .run => (os.filter (· ≠ .warned)).length
  | .failed => os.count .failed
  | .errored => os.count .errored
  | .warned => os.count .warned

/-- The numbers that a testset should report: those of the tests in it. -/
def summary (os : List Outcome) : List Int := [.run, .failed, .errored, .warned].map (fun c => (tally os c : Int))

/-- What the testsets of the code should report, in the order in which they end. -/
def summaries : Code → List (List Int)
  | .done => []
  | .test _ rest => summaries rest
  | .testset body rest => summaries body ++ summary (tests body) :: summaries rest

/-- All threads have come to their end. -/
def Finished (s : State) : Prop := ∀ th ∈ s.threads, th.todo = []

end Unpy.TestThreads.Spec

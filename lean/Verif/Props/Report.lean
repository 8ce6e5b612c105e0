import Verif.Spec.Report
/-!
# Property C162: what a test counts as, and what it reports
-/
namespace Unpy.Props
open Unpy.Report Unpy.Report.Spec
variable {V X : Type}

private theorem lit0 (x : String) : ", " ++ ("due to " ++ x) = ", due to " ++ x := by rw [← String.append_assoc]; rfl
private theorem lit1 (x : String) : ", due to " ++ ("result = " ++ x) = ", due to result = " ++ x := by rw [← String.append_assoc]; rfl
private theorem lit2 (x : String) : ", " ++ ("with message '" ++ x) = ", with message '" ++ x := by rw [← String.append_assoc]; rfl
private theorem lit3 (x : String) : ", " ++ ("due to unexpected exception: " ++ x) = ", due to unexpected exception: " ++ x := by rw [← String.append_assoc]; rfl
private theorem lit4 (x : String) : ", " ++ ("due to unexpected signal: " ++ x) = ", due to unexpected signal: " ++ x := by rw [← String.append_assoc]; rfl
private theorem lit5 (x : String) : ", " ++ ("expected signal: " ++ x) = ", expected signal: " ++ x := by rw [← String.append_assoc]; rfl
private theorem lit6 (x : String) : ", " ++ ("expected exception: " ++ x) = ", expected exception: " ++ x := by rw [← String.append_assoc]; rfl
private theorem lit7 (x : String) : ", " ++ ("got unexpected signal: " ++ x) = ", got unexpected signal: " ++ x := by rw [← String.append_assoc]; rfl
private theorem lit8 (x : String) : ", " ++ ("got unexpected exception: " ++ x) = ", got unexpected exception: " ++ x := by rw [← String.append_assoc]; rfl
private theorem lit9 (x : String) : "', " ++ ("due to unexpected exception: " ++ x) = "', due to unexpected exception: " ++ x := by rw [← String.append_assoc]; rfl
private theorem lit10 (x : String) : "', " ++ ("due to unexpected signal: " ++ x) = "', due to unexpected signal: " ++ x := by rw [← String.append_assoc]; rfl
private theorem lit11 (x : String) : "', " ++ ("expected signal: " ++ x) = "', expected signal: " ++ x := by rw [← String.append_assoc]; rfl
private theorem lit12 (x : String) : "', " ++ ("expected exception: " ++ x) = "', expected exception: " ++ x := by rw [← String.append_assoc]; rfl

private theorem inter_join (l : List String) : ", ".intercalate l = join l := by
  induction l with
  | nil => rfl
  | cons a l ih =>
    cases l with
    | nil => rfl
    | cons b l =>
      rw [join, ← ih, String.intercalate_cons_of_ne_nil (by simp)]

private theorem shows_logged {W : World V X} {captured : List (String × V)} {ls : List (String × String)} (h : Shows W captured ls) :
    logged W captured = .ok ls := by
  induction h with
  | nil => rfl
  | cons h _ ih =>
    rcases h with ⟨h1, h2⟩ | ⟨u, h1, h2⟩
    · simp [logged, shown, h1, h2, ih]
    · simp [logged, shown, h1, h2, ih]

private theorem valuesMsg_ok {W : World V X} {captured : List (String × V)} {ls : List (String × String)} (h : Shows W captured ls)
    {mode : Mode V X} {t : String} (ht : strResult W mode = .ok t) : ∃ m, valuesMsg W captured mode = .ok m := by
  unfold valuesMsg
  rw [shows_logged h]
  simp only [ht]
  split
  · exact ⟨_, rfl⟩
  · exact ⟨_, rfl⟩

/-- C162: what a test counts as, and the type of what is signaled, if the captured values and the result can be shown and the result can be a condition: it passes if the value is true;
it fails if it is false, and for `fail[]`; it is an error for an exception, an uncaught signal and `error[]`; `warn[]` counts as a warning and not as a test.
(Missing: values that cannot be shown, or cannot be a condition: `C162_repr_refuted`, `C162_truth_refuted`.) -/
theorem C162_verdict_partial (W : World V X) (file line src : String) (captured : List (String × V)) (ls : List (String × String))
    (mode : Mode V X) (msg : Option String) (c : Counts) (t : String) (b : Bool)
    (hs : Shows W captured ls) (ht : strResult W mode = .ok t) (hb : ∀ v, mode = .completed v → W.truth v = .ok b) :
    ∃ r, assertTest W file line src captured mode msg c = (.ok r, (verdict W b mode).count c) ∧
      r.map Report.cond = (verdict W b mode).cond := by
  obtain ⟨m, hm⟩ := valuesMsg_ok hs ht
  obtain ⟨run, f, e, w⟩ := c
  cases mode with
  | completed v =>
    rcases hsp : W.special v with _ | s
    · cases b <;> simp [assertTest, hm, hsp, hb v rfl, verdict, Verdict.count, Verdict.cond]
    · cases s <;> simp [assertTest, hm, hsp, verdict, Verdict.count, Verdict.cond]
  | signaled x => simp [assertTest, hm, verdict, Verdict.count, Verdict.cond]
  | raised x => simp [assertTest, hm, verdict, Verdict.count, Verdict.cond]

example : ∃ r, assertTest vals "f.py" "3" "x" [("x", .int 0)] (.completed (.int 0)) none ⟨0, 0, 0, 0⟩ = (.ok r, ⟨1, 1, 0, 0⟩) ∧
    r.map Report.cond = some .failure :=
  C162_verdict_partial vals "f.py" "3" "x" [("x", .int 0)] [("x", "0")] (.completed (.int 0)) none ⟨0, 0, 0, 0⟩ "0" false
    (.cons (.inl ⟨rfl, rfl⟩) .nil) rfl (fun v hv => by cases hv; rfl)

/-- C162: the text for a test that fails has its source code, all captured values with their source code, in the order in which they were captured, or the result if there are none, and
the message of the user. (Missing: trivial ones should be left out: `C162_trivial_refuted`.) -/
theorem C162_text_partial (W : World V X) (file line src : String) (captured : List (String × V)) (ls : List (String × String))
    (v : V) (msg : Option String) (c : Counts) (t : String)
    (hs : Shows W captured ls) (hq : ∀ p ∈ ls, ¬ Quoted W p) (ht : W.strV v = .ok t) (hb : W.truth v = .ok false) (hsp : W.special v = none) :
    (assertTest W file line src captured (.completed v) msg c).1 = .ok (some ⟨.failure, "test", failed file line src ls t msg⟩) := by
  have hf : ls.filter (fun p => W.canon p.1 != W.canon (W.strRepr p.2)) = ls := by
    rw [List.filter_eq_self]
    intro p hp
    simpa [Quoted] using hq p hp
  unfold assertTest valuesMsg
  rw [shows_logged hs]
  cases ls with
  | nil =>
    cases msg <;>
      simp [valuesStrs, strResult, ht, hsp, hb, failed, complete, customMsg, inter_join, join, String.append_assoc, lit0, lit1, lit2, lit3, lit4, lit5, lit6, lit7, lit8, lit9, lit10, lit11, lit12]
  | cons p l =>
    have hn : valuesStrs W (p :: l) = (p :: l).map fun p => p.1 ++ " = " ++ p.2 := by rw [valuesStrs, hf]
    simp only [failed, inter_join]
    cases msg <;>
      simp [hn, hsp, hb, failed, complete, customMsg, inter_join, join, String.append_assoc, lit0, lit1, lit2, lit3, lit4, lit5, lit6, lit7, lit8, lit9, lit10, lit11, lit12]

example : (assertTest vals "f.py" "3" "x < y" [("x", .int 2), ("y", .int 1)] (.completed (.int 0)) (some "oops") ⟨0, 0, 0, 0⟩).1 =
    .ok (some ⟨.failure, "test", "[f.py:3] Test failed: x < y, due to x = 2, y = 1, with message 'oops'"⟩) :=
  C162_text_partial vals "f.py" "3" "x < y" [("x", .int 2), ("y", .int 1)] [("x", "2"), ("y", "1")] (.int 0) (some "oops") ⟨0, 0, 0, 0⟩ "0"
    (.cons (.inl ⟨rfl, rfl⟩) (.cons (.inl ⟨rfl, rfl⟩) .nil)) (by intro p hp; simp at hp; rcases hp with rfl | rfl <;> simp [Quoted, vals])
    rfl rfl rfl

/-- C162, refuted: "The condition filters out trivialities due to literals, such as `4 = 4` in `test[4 in (1, 2, 3)]`" (testingtools.py:619).  It does not: it compares the source code with
the repr of the repr of the value. -/
theorem C162_trivial_refuted :
    Trivial vals ("4", "4") ∧ Shows vals [("4", .int 4)] [("4", "4")] ∧
    (assertTest vals "f.py" "3" "4 in (1, 2, 3)" [("4", .int 4)] (.completed (.int 0)) none ⟨0, 0, 0, 0⟩).1 =
      .ok (some ⟨.failure, "test", "[f.py:3] Test failed: 4 in (1, 2, 3), due to 4 = 4"⟩) :=
  ⟨rfl, .cons (.inl ⟨rfl, rfl⟩) .nil, rfl⟩

/-- C162, refuted: if `repr` of a captured value raises, this exception comes out of the test, and the test is not counted; also if the test has passed. -/
theorem C162_repr_refuted (W : World V X) (file line src s : String) (v w : V) (x : X) (rest : List (String × V)) (msg : Option String) (c : Counts)
    (hu : W.unparsed v = none) (hr : W.repr v = .error x) (_ : W.truth w = .ok true) (_ : W.special w = none) :
    assertTest W file line src ((s, v) :: rest) (.completed w) msg c = (.error x, c) := by
  simp [assertTest, valuesMsg, logged, shown, hu, hr]

example : assertTest vals "f.py" "3" "the[x] is not None" [("x", .bad)] (.completed (.int 1)) none ⟨0, 0, 0, 0⟩ = (.error "ValueError", ⟨0, 0, 0, 0⟩) :=
  C162_repr_refuted vals "f.py" "3" "the[x] is not None" "x" .bad (.int 1) "ValueError" [] none ⟨0, 0, 0, 0⟩ rfl rfl rfl rfl

/-- C162, refuted: if the value of the test cannot be a condition (as an array of numpy), the exception comes out of the test, which is counted, but neither as failed nor as errored. -/
theorem C162_truth_refuted (W : World V X) (file line src : String) (captured : List (String × V)) (ls : List (String × String)) (v : V) (x : X) (t : String)
    (msg : Option String) (c : Counts) (hs : Shows W captured ls) (ht : W.strV v = .ok t) (hsp : W.special v = none) (hb : W.truth v = .error x) :
    assertTest W file line src captured (.completed v) msg c = (.error x, { c with run := c.run + 1 }) := by
  obtain ⟨m, hm⟩ := valuesMsg_ok hs (mode := .completed v) ht
  simp [assertTest, hm, hsp, hb]

example : assertTest vals "f.py" "3" "x" [] (.completed .bad) none ⟨0, 0, 0, 0⟩ = (.error "ValueError", ⟨1, 0, 0, 0⟩) :=
  C162_truth_refuted vals "f.py" "3" "x" [] [] .bad "ValueError" "bad" none ⟨0, 0, 0, 0⟩ .nil rfl rfl rfl

/-- C162: the text for `fail[msg]`, `error[msg]` and `warn[msg]` is the place and the message, and nothing else. -/
theorem C162_unconditional (W : World V X) (file line src : String) (v : V) (sp : Special) (t m : String) (c : Counts)
    (ht : W.strV v = .ok t) (hsp : W.special v = some sp) :
    ∃ cond origin, (assertTest W file line src [] (.completed v) (some m) c).1 = .ok (some ⟨cond, origin, "[" ++ file ++ ":" ++ line ++ "] " ++ m⟩) ∧
      (cond, origin) = match sp with | .fail => (Cond.failure, "fail") | .error => (.error, "error") | .warn => (.warning, "warn") := by
  cases sp <;> exact ⟨_, _, by simp [assertTest, valuesMsg, logged, valuesStrs, strResult, ht, hsp, complete], rfl⟩

example : ∃ cond origin, (assertTest vals "f.py" "3" "_warn" [] (.completed (.marker .warn)) (some "skipped") ⟨0, 0, 0, 0⟩).1 =
    .ok (some ⟨cond, origin, "[f.py:3] skipped"⟩) ∧ (cond, origin) = (Cond.warning, "warn") :=
  C162_unconditional vals "f.py" "3" "_warn" (.marker .warn) .warn "sym" "skipped" ⟨0, 0, 0, 0⟩ rfl rfl

/-- C162: the text for a test that ends by an exception or a signal: its source code, the message of the user, and which exception it was. -/
theorem C162_unexpected (W : World V X) (file line src : String) (captured : List (String × V)) (ls : List (String × String)) (x : X) (t : String)
    (msg : Option String) (c : Counts) (hs : Shows W captured ls) (ht : W.strX x = .ok t) :
    (assertTest W file line src captured (.raised x) msg c).1 = .ok (some ⟨.error, "test", "[" ++ file ++ ":" ++ line ++ "] " ++ ", ".intercalate
      (["Test errored: " ++ src] ++ (match msg with | some m => ["with message '" ++ m ++ "'"] | none => []) ++
       ["due to unexpected exception: " ++ W.describe x])⟩) ∧
    (assertTest W file line src captured (.signaled x) msg c).1 = .ok (some ⟨.error, "test", "[" ++ file ++ ":" ++ line ++ "] " ++ ", ".intercalate
      (["Test errored: " ++ src] ++ (match msg with | some m => ["with message '" ++ m ++ "'"] | none => []) ++
       ["due to unexpected signal: " ++ W.describe x])⟩) := by
  obtain ⟨m1, h1⟩ := valuesMsg_ok hs (mode := .raised x) ht
  obtain ⟨m2, h2⟩ := valuesMsg_ok hs (mode := .signaled x) ht
  cases msg <;> simp [assertTest, h1, h2, complete, customMsg, inter_join, join, String.append_assoc, lit0, lit1, lit2, lit3, lit4, lit5, lit6, lit7, lit8, lit9, lit10, lit11, lit12]

example : (assertTest vals "f.py" "3" "x" [] (.raised "IndexError") none ⟨0, 0, 0, 0⟩).1 =
    .ok (some ⟨.error, "test", "[f.py:3] Test errored: x, due to unexpected exception: IndexError"⟩) :=
  (C162_unexpected vals "f.py" "3" "x" [] [] "IndexError" "IndexError" none ⟨0, 0, 0, 0⟩ .nil rfl).1

/-- C162: `test_signals` and `test_raises`: what they count as, the type of what is signaled, and where that comes from. -/
theorem C162_expected (W : World V X) (file line src : String) (ty : V) (mode : Mode V X) (msg : Option String) (c : Counts) (b : Bool)
    (hb : ∀ x, W.isInstance x ty = .ok b) :
    (∃ r, assertSignals W file line src ty mode msg c = (.ok r, (verdictSignals b mode).count c) ∧
      r.map (fun r => (r.cond, r.origin)) = (verdictSignals b mode).cond.map (·, "test_signals")) ∧
    (∃ r, assertRaises W file line src ty mode msg c = (.ok r, (verdictRaises b mode).count c) ∧
      r.map (fun r => (r.cond, r.origin)) = (verdictRaises b mode).cond.map (·, "test_raises")) := by
  obtain ⟨run, f, e, w⟩ := c
  constructor
  · cases mode <;> cases b <;> simp [assertSignals, hb, verdictSignals, Verdict.count, Verdict.cond]
  · cases mode <;> cases b <;> simp [assertRaises, hb, verdictRaises, Verdict.count, Verdict.cond]

example : ∃ r, assertRaises vals "f.py" "3" "x" (.int 0) (.signaled "c") none ⟨5, 0, 0, 0⟩ = (.ok r, ⟨6, 0, 1, 0⟩) ∧
    r.map (fun r => (r.cond, r.origin)) = some (.error, "test_raises") :=
  (C162_expected vals "f.py" "3" "x" (.int 0) (.signaled "c") none ⟨5, 0, 0, 0⟩ true (fun _ => rfl)).2

/-- C162: their texts: the source code, the message of the user, what was expected, and what happened instead. -/
theorem C162_expected_text (W : World V X) (file line src : String) (ty : V) (mode : Mode V X) (msg : Option String) (c : Counts) :
    (∀ r, (assertSignals W file line src ty mode msg c).1 = .ok (some r) → r.text = "[" ++ file ++ ":" ++ line ++ "] " ++ ", ".intercalate
      ([(match mode with | .completed _ => "Test failed: " | _ => "Test errored: ") ++ src] ++
       (match msg with | some m => ["with message '" ++ m ++ "'"] | none => []) ++ ["expected signal: " ++ W.describeType ty] ++
       [match mode with | .completed _ => "nothing was signaled." | .signaled x => "got unexpected signal: " ++ W.describe x
                        | .raised x => "got unexpected exception: " ++ W.describe x])) ∧
    (∀ r, (assertRaises W file line src ty mode msg c).1 = .ok (some r) → r.text = "[" ++ file ++ ":" ++ line ++ "] " ++ ", ".intercalate
      ([(match mode with | .completed _ => "Test failed: " | _ => "Test errored: ") ++ src] ++
       (match msg with | some m => ["with message '" ++ m ++ "'"] | none => []) ++ ["expected exception: " ++ W.describeType ty] ++
       [match mode with | .completed _ => "nothing was raised." | .signaled x => "got unexpected signal: " ++ W.describe x
                        | .raised x => "got unexpected exception: " ++ W.describe x])) := by
  constructor
  · intro r h
    cases mode with
    | completed v =>
      simp only [assertSignals, Except.ok.injEq, Option.some.injEq] at h
      subst h
      cases msg <;> simp [complete, customMsg, inter_join, join, String.append_assoc, lit0, lit1, lit2, lit3, lit4, lit5, lit6, lit7, lit8, lit9, lit10, lit11, lit12]
    | signaled x =>
      simp only [assertSignals] at h
      split at h
      · cases h
      · cases h
      · simp only [Except.ok.injEq, Option.some.injEq] at h
        subst h
        cases msg <;> simp [complete, customMsg, inter_join, join, String.append_assoc, lit0, lit1, lit2, lit3, lit4, lit5, lit6, lit7, lit8, lit9, lit10, lit11, lit12]
    | raised x =>
      simp only [assertSignals, Except.ok.injEq, Option.some.injEq] at h
      subst h
      cases msg <;> simp [complete, customMsg, inter_join, join, String.append_assoc, lit0, lit1, lit2, lit3, lit4, lit5, lit6, lit7, lit8, lit9, lit10, lit11, lit12]
  · intro r h
    cases mode with
    | completed v =>
      simp only [assertRaises, Except.ok.injEq, Option.some.injEq] at h
      subst h
      cases msg <;> simp [complete, customMsg, inter_join, join, String.append_assoc, lit0, lit1, lit2, lit3, lit4, lit5, lit6, lit7, lit8, lit9, lit10, lit11, lit12]
    | signaled x =>
      simp only [assertRaises, Except.ok.injEq, Option.some.injEq] at h
      subst h
      cases msg <;> simp [complete, customMsg, inter_join, join, String.append_assoc, lit0, lit1, lit2, lit3, lit4, lit5, lit6, lit7, lit8, lit9, lit10, lit11, lit12]
    | raised x =>
      simp only [assertRaises] at h
      split at h
      · cases h
      · cases h
      · simp only [Except.ok.injEq, Option.some.injEq] at h
        subst h
        cases msg <;> simp [complete, customMsg, inter_join, join, String.append_assoc, lit0, lit1, lit2, lit3, lit4, lit5, lit6, lit7, lit8, lit9, lit10, lit11, lit12]

example : ∀ r, (assertRaises vals "f.py" "3" "x" (.int 0) (.completed (.int 1)) none ⟨0, 0, 0, 0⟩).1 = .ok (some r) →
    r.text = "[f.py:3] Test failed: x, expected exception: type, nothing was raised." :=
  (C162_expected_text vals "f.py" "3" "x" (.int 0) (.completed (.int 1)) none ⟨0, 0, 0, 0⟩).2

end Unpy.Props

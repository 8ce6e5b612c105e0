import Verif.Proof.Client
/-!
# C112: the client of the REPL server
-/
namespace Unpy.Props
open Unpy.Client Unpy.Spec.Client Unpy.Proof.Client

/-- the prompts of the server (net/server.py:578-579) -/
def serverPrompts : Prompts := ⟨">>>> ".toList, ".... ".toList⟩

private theorem good : Good serverPrompts := by constructor <;> decide

/-- What the client has done when this has happened -/
def clientActs (P : Prompts) (es : List Ev) : List Act := (connect P es).1

private theorem legal_nil {acts : List Ev → List Act} : Legal acts [] := fun pre e post h => by simp at h

private theorem legal_add {acts : List Ev → List Act} {es e} (h : Legal acts es) (h1 : Possible (acts es) e) (h2 : ¬ Ended (acts es)) : Legal acts (es ++ [e]) := by
  intro pre e' post he
  rcases List.eq_nil_or_concat post with rfl | ⟨post', x, rfl⟩
  · have := List.append_inj' he rfl
    obtain ⟨rfl, h⟩ := this
    simp at h; subst h
    exact ⟨h1, h2⟩
  · rw [List.concat_eq_append, ← List.cons_append, ← List.append_assoc] at he
    exact h pre e' post' (List.append_inj' he rfl).1

/-- a session: the user types a line, and the answer comes in two parts -/
private def session : List Ev := [.data (encode "REPL session 1 connected.\n>>>> ".toList), .line "é".toList, .data (encode "é\n".toList), .data (encode "'é'\n>>>> ".toList)]

private theorem session_run : connect serverPrompts session =
    ([.pairs 1, .shows "REPL session 1 connected.\n".toList, .asks ">>>> ".toList, .sends "é\n".toList, .shows "é\n".toList, .shows "'é'\n".toList, .asks ">>>> ".toList], .waits) := by
  decide +kernel

private theorem session_legal : Legal (clientActs serverPrompts) session := by
  have h1 : clientActs serverPrompts [.data (encode "REPL session 1 connected.\n>>>> ".toList)] = [.pairs 1, .shows "REPL session 1 connected.\n".toList, .asks ">>>> ".toList] := by decide +kernel
  have h2 : clientActs serverPrompts [.data (encode "REPL session 1 connected.\n>>>> ".toList), .line "é".toList] =
    [.pairs 1, .shows "REPL session 1 connected.\n".toList, .asks ">>>> ".toList, .sends "é\n".toList] := by decide +kernel
  have h3 : clientActs serverPrompts [.data (encode "REPL session 1 connected.\n>>>> ".toList), .line "é".toList, .data (encode "é\n".toList)] =
    [.pairs 1, .shows "REPL session 1 connected.\n".toList, .asks ">>>> ".toList, .sends "é\n".toList, .shows "é\n".toList] := by decide +kernel
  refine legal_add (es := [_, _, _]) (legal_add (es := [_, _]) (legal_add (es := [_]) (legal_add (es := []) legal_nil ?_ ?_) ?_ ?_) ?_ ?_) ?_ ?_
  · simp [Possible, clientActs, connect, run, Asked]
  · simp [clientActs, connect, run, Ended]
  · erw [h1]; simp [Possible, Asked]
  · erw [h1]; simp [Ended]
  · erw [h2]; simp [Possible, Asked]
  · erw [h2]; simp [Ended]
  · erw [h3]; simp [Possible, Asked]
  · erw [h3]; simp [Ended]

/-- The text on the screen is what the server has sent: nothing is lost, added or put in another order.  While the client asks for input, all that it has received is on the screen.
This holds of clients that have not ended; one ends with an exception if the network splits a character (`C112_split_character_refuted`).  Empty prompts are excluded: see
`C112_empty_prompt_refuted`. -/
theorem C112_transcript_partial {P es} (h1 : P.ps1 ≠ []) (h2 : P.ps2 ≠ []) (hl : Legal (clientActs P) es) (hn : ¬ Ended (clientActs P es)) :
    (∃ rest, encode (screen (clientActs P es)) ++ rest = received es) ∧ (Asked (clientActs P es) → encode (screen (clientActs P es)) = received es) := by
  have hi := inv ⟨h1, h2⟩ es hl
  have hd := hi.data fun h => hn (hi.ended.2 h)
  refine ⟨⟨_, hd⟩, fun ha => ?_⟩
  rw [hi.asked.1 ha] at hd
  simpa [held, clientActs] using hd

example : encode (screen (clientActs serverPrompts session)) = received session :=
  (C112_transcript_partial good.1 good.2 session_legal (by unfold clientActs; rw [session_run]; simp [Ended])).2 ⟨">>>> ".toList, by unfold clientActs; rw [session_run]; simp⟩

/-- What is sent to the server is what the user has typed, in this order, and nothing else. -/
theorem C112_sent {P es} (h1 : P.ps1 ≠ []) (h2 : P.ps2 ≠ []) (hl : Legal (clientActs P) es) (hn : ∀ e, .fails e ∉ clientActs P es) :
    sent (clientActs P es) = typed es :=
  (inv ⟨h1, h2⟩ es hl).sent hn

example : sent (clientActs serverPrompts session) = ["é\n".toList] := C112_sent good.1 good.2 session_legal (by unfold clientActs; rw [session_run]; simp)

/-- An answer of the server, that is a text and a prompt, is shown, and the user is asked with this prompt, if the answer comes in parts that are texts, no part except for the last one
ends with a prompt, and the last part has the whole prompt.
The full property says this of all ways to split the answer.  See the next three theorems.
(Missing: other ways to split the answer, see `C112_split_prompt_refuted`, `C112_split_character_refuted` and `C112_false_prompt_refuted`.) -/
theorem C112_answer_partial {P es as} {ts : List (List Char)} {t p : List Char} (h1 : P.ps1 ≠ []) (h2 : P.ps2 ≠ []) (hr : connect P es = (as, .reads))
    (hts : ∀ u ∈ ts, ¬ P.ps1 <:+ u ∧ ¬ P.ps2 <:+ u) (hp : p = P.ps1 ∨ (p = P.ps2 ∧ ¬ P.ps1 <:+ t ++ p)) :
    connect P (es ++ (ts.map fun u => .data (encode u)) ++ [.data (encode (t ++ p))]) = (as ++ ts.map .shows ++ [.shows t, .asks p], .waits) := by
  simp only [connect] at hr ⊢
  rw [run_append, run_append, hr, run_reads ⟨h1, h2⟩ ts hts]
  simp [run, step, process_prompt ⟨h1, h2⟩ hp]

/-- a client that waits for an answer -/
private def waiting : List Ev := [.data (encode "REPL session 1 connected.\n".toList)]

private theorem waiting_run : connect serverPrompts waiting = ([.pairs 1, .shows "REPL session 1 connected.\n".toList], .reads) := by decide +kernel

example : connect serverPrompts (waiting ++ [.data (encode "a\n".toList), .data (encode "b\n>>>> ".toList)]) =
    ([.pairs 1, .shows "REPL session 1 connected.\n".toList, .shows "a\n".toList, .shows "b\n".toList, .asks ">>>> ".toList], .waits) :=
  C112_answer_partial (P := serverPrompts) (ts := ["a\n".toList]) (t := "b\n".toList) good.1 good.2 waiting_run (by decide) (.inl rfl)

/-- If the network splits the prompt, then the client shows it, but never asks for input: both sides wait for the other one. -/
theorem C112_split_prompt_refuted :
    ¬ ∀ (P : Prompts) (es : List Ev) (as : List Act) (bs : List Bytes) (t : List Char), P.ps1 ≠ [] → P.ps2 ≠ [] → connect P es = (as, .reads) → bs.flatten = encode (t ++ P.ps1) →
      (connect P (es ++ bs.map .data)).2 = .waits := by
  intro h
  have := h serverPrompts waiting _ [encode "a\n>>>>".toList, encode " ".toList] "a\n".toList good.1 good.2 waiting_run (by decide +kernel)
  exact absurd this (by decide +kernel)

/-- If the network splits a character, then the client ends with UnicodeDecodeError. -/
theorem C112_split_character_refuted :
    ¬ ∀ (P : Prompts) (es : List Ev) (as : List Act) (bs : List Bytes) (t : List Char), P.ps1 ≠ [] → P.ps2 ≠ [] → connect P es = (as, .reads) → bs.flatten = encode t →
      ∀ e, .fails e ∉ (connect P (es ++ bs.map .data)).1 := by
  intro h
  have := h serverPrompts waiting _ [[0xc3], [0xa9, 10]] "é\n".toList good.1 good.2 waiting_run (by decide +kernel) .unicode
  exact absurd this (by decide +kernel)

/-- If a part of an answer ends with the text of a prompt, then the client asks for input before the answer is complete. -/
theorem C112_false_prompt_refuted :
    ¬ ∀ (P : Prompts) (es : List Ev) (as : List Act) (ts : List (List Char)) (t : List Char), P.ps1 ≠ [] → P.ps2 ≠ [] → connect P es = (as, .reads) → t ++ P.ps1 = ts.flatten →
      ∀ pre, pre <+: ts → pre ≠ ts → (connect P (es ++ pre.map fun u => .data (encode u))).2 = .reads := by
  intro h
  have := h serverPrompts waiting _ ["the prompt is >>>> ".toList, "\n>>>> ".toList] "the prompt is >>>> \n".toList good.1 good.2 waiting_run (by decide +kernel)
    ["the prompt is >>>> ".toList] ⟨["\n>>>> ".toList], rfl⟩ (by decide)
  exact absurd this (by decide +kernel)

/-- With an empty prompt, the output is lost. -/
theorem C112_empty_prompt_refuted :
    ¬ ∀ P es, Legal (clientActs P) es → ¬ Ended (clientActs P es) → Asked (clientActs P es) → encode (screen (clientActs P es)) = received es := by
  intro h
  have hr : clientActs ⟨">>>> ".toList, []⟩ [.data (encode "REPL session 1 connected.\n".toList)] = [.pairs 1, .shows [], .asks []] := by decide +kernel
  have := h ⟨">>>> ".toList, []⟩ [.data (encode "REPL session 1 connected.\n".toList)]
    (legal_add (es := []) legal_nil (by simp [Possible, clientActs, connect, run, Asked]) (by simp [clientActs, connect, run, Ended]))
    (by rw [hr]; simp [Ended]) ⟨[], by rw [hr]; simp⟩
  rw [hr] at this
  exact absurd this (by decide +kernel)

/-- After Ctrl+C, the answer can be split in any way, if it comes before the client stops gathering data. -/
theorem C112_after_interrupt {P es as} {bs : List Bytes} {t p : List Char} (h1 : P.ps1 ≠ []) (h2 : P.ps2 ≠ []) (hr : (connect P es) = (as, .reads) ∨ (connect P es) = (as, .waits))
    (hb : bs ≠ []) (hbs : bs.flatten = encode (t ++ p)) (hp : p = P.ps1 ∨ (p = P.ps2 ∧ ¬ P.ps1 <:+ t ++ p)) :
    connect P (es ++ .ctrlC :: bs.map .data ++ [.quiet]) = (as ++ [.interrupts, .sends ['\n'], .shows t, .asks p], .waits) := by
  have hs : step P (connect P es).2 .ctrlC = ([.interrupts, .sends ['\n']], .gathers [] false) := by rcases hr with hr | hr <;> rw [hr] <;> rfl
  have ha : (connect P es).1 = as := by rcases hr with hr | hr <;> rw [hr]
  have hne : bs.isEmpty = false := by simpa using hb
  simp only [connect] at hs ha ⊢
  rw [List.append_assoc, run_append, ha, List.cons_append, run, hs, run_append, run_gathers, hbs, hne]
  simp [run, step, process_prompt ⟨h1, h2⟩ hp]

example : connect serverPrompts (waiting ++ [.ctrlC, .data [0xc3], .data (0xa9 :: encode "\nKeyboardInterrupt\n>>>".toList), .data (encode "> ".toList), .quiet]) =
    ([.pairs 1, .shows "REPL session 1 connected.\n".toList, .interrupts, .sends ['\n'], .shows "é\nKeyboardInterrupt\n".toList, .asks ">>>> ".toList], .waits) :=
  C112_after_interrupt (P := serverPrompts) (bs := [[0xc3], 0xa9 :: encode "\nKeyboardInterrupt\n>>>".toList, encode "> ".toList]) (t := "é\nKeyboardInterrupt\n".toList)
    good.1 good.2 (.inl waiting_run) (by simp) (by decide +kernel) (.inl rfl)

/-- The client pairs its control channel with the session that the server has opened for it, however the first line is split, if the part with its end does not end within a character.
The full property says this of all ways to split it; then `C112_first_line_refuted` applies. -/
theorem C112_pairs_partial {P} {n : Nat} {tail rest : List Char} {bs : List Bytes} {b : Bytes} (ht : 's' ∉ tail ∧ '\n' ∉ tail) (hbs : ∀ b ∈ bs, (10 : UInt8) ∉ b)
    (hb : (10 : UInt8) ∈ b) (he : bs.flatten ++ b = encode (greeting n tail ++ '\n' :: rest)) :
    ∃ as m, connect P (bs.map .data) = ([], .first bs.flatten) ∧ connect P (bs.map .data ++ [.data b]) = (.pairs n :: as, m) ∧ (∀ k, .pairs k ∉ as) ∧
      (P.ps1 ≠ [] → P.ps2 ≠ [] → m ≠ .over) := by
  have h1 := run_first (P := P) [] bs hbs (by simp)
  simp only [List.nil_append] at h1
  have hline : '\n' ∉ greeting n tail := by
    have hd : '\n' ∉ Nat.toDigits 10 n := fun h => absurd (Nat.isDigit_of_mem_toDigits (by omega) (by omega) h) (by decide)
    unfold greeting
    simp only [toString_digits, List.mem_append, not_or]
    exact ⟨⟨⟨by decide, hd⟩, by decide⟩, ht.2⟩
  have hc : (bs.flatten ++ b).contains 10 = true := by simp [hb]
  have hf : firstLine P (bs.flatten ++ b) = (.pairs n :: (process P (bs.flatten ++ b)).1, (process P (bs.flatten ++ b)).2) := by
    simp only [firstLine, hc, if_true]
    rw [he, decode_encode]
    simp only [takeWhile_line hline, findall_greeting n tail ht.1, toInt_digits]
  refine ⟨(process P (bs.flatten ++ b)).1, (process P (bs.flatten ++ b)).2, h1, ?_, ?_, ?_⟩
  · simp [connect, run_append, h1, run, step, hf]
  · intro k
    simp only [process]
    split <;> split <;> (try split) <;> simp
  · intro hp1 hp2
    have := processed (P := P) ⟨hp1, hp2⟩ (bs.flatten ++ b)
    generalize process P (bs.flatten ++ b) = x at this
    cases this with
    | fails hd => rw [he, decode_encode] at hd; cases hd
    | _ => simp

example : ∃ as m, connect serverPrompts [.data (encode "REPL sess".toList), .data (encode "ion 12 connected.\r\n>>>> ".toList)] = (.pairs 12 :: as, m) := by
  obtain ⟨as, m, _, h, _⟩ := C112_pairs_partial (P := serverPrompts) (n := 12) (tail := ['\r']) (rest := ">>>> ".toList) (bs := [encode "REPL sess".toList])
    (b := encode "ion 12 connected.\r\n>>>> ".toList) (by decide) (by decide +kernel) (by decide +kernel) (by decide +kernel)
  exact ⟨as, m, h⟩

/-- If the part with the end of the first line ends within a character of the banner, then the client ends with UnicodeDecodeError. -/
theorem C112_first_line_refuted :
    ¬ ∀ (P : Prompts) (n : Nat) (rest : List Char) (bs : List Bytes), bs.flatten = encode (greeting n [] ++ '\n' :: rest) → .pairs n ∈ (connect P (bs.map .data)).1 := by
  intro h
  have := h serverPrompts 1 "é\n".toList [encode "REPL session 1 connected.\n".toList ++ [0xc3], [0xa9, 10]] (by decide +kernel)
  exact absurd this (by decide +kernel)

/-- The client pairs its control channel only with a session whose number the first line of the server has announced, in all that can come. -/
theorem C112_announced {P : Prompts} {es : List Ev} {n : Nat} (h : .pairs n ∈ (connect P es).1) : Announced n (received es) := (announced P es).2 n h

example : .pairs 1 ∈ (connect serverPrompts waiting).1 := by rw [waiting_run]; simp
example : connect serverPrompts [.data (encode "REPL session  connected.\n".toList)] = ([.fails .assertion], .over) := by decide +kernel

end Unpy.Props

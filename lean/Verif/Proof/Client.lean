import Verif.Spec.Client
/-! Lemmas about the client -/
namespace Unpy.Proof.Client
open Unpy.Client Unpy.Spec.Client

theorem encode_eq (s : List Char) : (encode s).toByteArray = s.utf8Encode := rfl

theorem encode_append (s t : List Char) : encode (s ++ t) = encode s ++ encode t := by simp [encode]

theorem toList_toByteArray (b : Bytes) : b.toByteArray.data.toList = b := by simp

theorem toByteArray_inj {a b : Bytes} (h : a.toByteArray = b.toByteArray) : a = b := by
  rw [← toList_toByteArray a, h, toList_toByteArray]

theorem decode_encode (s : List Char) : decode (encode s) = some s := by
  simp [decode, encode_eq]

theorem encode_inj {s t : List Char} (h : encode s = encode t) : s = t := by
  have := decode_encode s
  rw [h, decode_encode] at this
  exact (Option.some.inj this).symm

theorem encode_of_decode {b : Bytes} {s : List Char} (h : decode b = some s) : encode s = b := by
  simp only [decode, Option.map_eq_some_iff] at h
  obtain ⟨a, ha, rfl⟩ := h
  apply toByteArray_inj
  have := ByteArray.utf8Encode_get_utf8Decode? (b := b.toByteArray) (h := by simp [ha])
  simpa [encode_eq, ha] using this

/-- a suffix that is a text starts at the beginning of a character -/
theorem encode_suffix {t p : List Char} {x : Bytes} (h : encode t = x ++ encode p) : ∃ y, t = y ++ p := by
  have hb : t.utf8Encode = x.toByteArray ++ p.utf8Encode := by
    rw [← encode_eq, h, List.toByteArray_append, encode_eq]
  have ht : (String.ofList t).toByteArray = x.toByteArray ++ p.utf8Encode := by rw [String.toByteArray_ofList, hb]
  have hsz : (String.ofList t).utf8ByteSize = x.length + p.utf8Encode.size := by
    rw [← String.size_toByteArray, ht]; simp
  have hv : String.Pos.Raw.IsValid (String.ofList t) ⟨x.length⟩ := by
    rw [String.Pos.Raw.isValid_iff_isValidUTF8_extract_utf8ByteSize]
    refine ⟨by simp [String.Pos.Raw.le_iff, hsz], ?_⟩
    rw [ht, hsz, ByteArray.extract_append_eq_right (by simp) (by simp)]
    exact ByteArray.isValidUTF8_utf8Encode
  obtain ⟨m₁, m₂, hm, hs⟩ := hv.exists
  have hs : t = m₁ ++ m₂ := by
    have := congrArg String.toList hs
    simpa using this.symm
  have hx : encode m₁ = x := by
    apply toByteArray_inj
    rw [encode_eq, hm, ht, ByteArray.extract_append_eq_left (by simp)]
  rw [hs, encode_append, hx] at h
  exact ⟨m₁, by rw [hs, encode_inj (List.append_cancel_left h)]⟩

theorem endsWith_iff {t p : List Char} : (encode p).isSuffixOf (encode t) = true ↔ p <:+ t := by
  rw [List.isSuffixOf_iff_suffix]
  constructor
  · rintro ⟨x, hx⟩
    obtain ⟨y, hy⟩ := encode_suffix hx.symm
    exact ⟨y, hy.symm⟩
  · rintro ⟨y, rfl⟩
    exact ⟨encode y, (encode_append y p).symm⟩

theorem dropLast_append {p : List Char} (hp : p ≠ []) (t : List Char) : dropLast p.length (t ++ p) = t := by
  have : p.length ≠ 0 := by simpa using hp
  simp [dropLast, hp]

/-! ## The parts of a run -/

theorem run_append (P m a b) : run P m (a ++ b) = ((run P m a).1 ++ (run P (run P m a).2 b).1, (run P (run P m a).2 b).2) := by
  induction a generalizing m with
  | nil => simp [run]
  | cons e a ih => simp [run, ih, List.append_assoc]

theorem screen_append (a b) : screen (a ++ b) = screen a ++ screen b := by
  induction a with
  | nil => rfl
  | cons x a ih => cases x <;> simp [screen, ih]

theorem sent_append (a b) : sent (a ++ b) = sent a ++ sent b := by
  induction a with
  | nil => rfl
  | cons x a ih => cases x <;> simp [sent, ih]

theorem received_append (a b) : received (a ++ b) = received a ++ received b := by
  induction a with
  | nil => rfl
  | cons x a ih => cases x <;> simp [received, ih]

theorem typed_append (a b) : typed (a ++ b) = typed a ++ typed b := by
  induction a with
  | nil => rfl
  | cons x a ih => cases x <;> simp [typed, ih]

theorem ended_append (a b) : Ended (a ++ b) ↔ Ended a ∨ Ended b := by
  simp only [Ended, List.mem_append, exists_or]
  constructor
  · rintro ((h | h) | (h | h) | (h | h)) <;> simp [h]
  · rintro ((h | h | h) | (h | h | h)) <;> simp [h]

theorem legal_snoc {acts es e} (h : Legal acts (es ++ [e])) : Legal acts es ∧ Possible (acts es) e ∧ ¬ Ended (acts es) :=
  ⟨fun pre e' post he => h pre e' (post ++ [e]) (by simp [he]), h es e [] rfl⟩

/-- nonempty prompts -/
def Good (P : Prompts) : Prop := P.ps1 ≠ [] ∧ P.ps2 ≠ []

/-- what processing does -/
inductive Processed (P : Prompts) (val : Bytes) : List Act × Mode → Prop where
  | fails (hd : decode val = none) : Processed P val ([.fails .unicode], .over)
  | shows {t} (hd : val = encode t) (h1 : ¬ P.ps1 <:+ t) (h2 : ¬ P.ps2 <:+ t) : Processed P val ([.shows t], .reads)
  | asks1 {t} (hd : val = encode (t ++ P.ps1)) : Processed P val ([.shows t, .asks P.ps1], .waits)
  | asks2 {t} (hd : val = encode (t ++ P.ps2)) (h1 : ¬ P.ps1 <:+ t ++ P.ps2) : Processed P val ([.shows t, .asks P.ps2], .waits)

theorem processed {P} (hP : Good P) (val) : Processed P val (process P val) := by
  cases hd : decode val with
  | none => have := Processed.fails (P := P) hd; simpa [process, hd] using this
  | some t =>
    have he := encode_of_decode hd
    subst he
    simp only [process, hd, Bool.or_eq_true, endsWith_iff]
    simp only [List.isSuffixOf_iff_suffix]
    by_cases h1 : P.ps1 <:+ t
    · rw [if_pos (.inl h1), if_pos h1]
      obtain ⟨y, rfl⟩ := h1
      rw [dropLast_append hP.1]
      exact .asks1 rfl
    · by_cases h2 : P.ps2 <:+ t
      · rw [if_pos (.inr h2), if_neg h1]
        obtain ⟨y, rfl⟩ := h2
        rw [dropLast_append hP.2]
        exact .asks2 rfl h1
      · rw [if_neg (by simp [h1, h2])]
        exact .shows rfl h1 h2

/-- bytes that have not been shown yet -/
def held : Mode → Bytes
  | .first b => b
  | .gathers b _ => b
  | _ => []

/-- what is true of the acts and the mode -/
structure Inv (P : Prompts) (es : List Ev) (r : List Act × Mode) : Prop where
  asked : Asked r.1 ↔ r.2 = .waits
  ended : Ended r.1 ↔ r.2 = .over
  data : r.2 ≠ .over → encode (screen r.1) ++ held r.2 = received es
  sent : (∀ e, .fails e ∉ r.1) → sent r.1 = typed es
  first : ∀ b, r.2 = .first b → r.1 = []

theorem asked_append_nonempty {a b : List Act} (hb : b ≠ []) : Asked (a ++ b) ↔ Asked b := by
  simp only [Asked, List.getLast?_append]
  cases h : b.getLast? with
  | none => simp at h; exact absurd h hb
  | some x => simp

/-- a step that processes what is held, with `b` added to it -/
theorem inv_process {P es r e x b} (hP : Good P) (hi : Inv P es r) (hm : r.2 ≠ .over) (hx : received [e] = b) (ht : typed [e] = [])
    (hp : Processed P (held r.2 ++ b) x) : Inv P (es ++ [e]) (r.1 ++ x.1, x.2) := by
  have hd := hi.data hm
  have hnot : ¬ Ended r.1 := fun h => hm (hi.ended.1 h)
  have hne : x.1 ≠ [] := by cases hp <;> simp
  refine ⟨?_, ?_, ?_, ?_, ?_⟩
  · rw [asked_append_nonempty hne]
    cases hp <;> simp [Asked]
  · simp only [ended_append, hnot, false_or]
    cases hp <;> simp [Ended]
  · intro hno
    rw [received_append, hx, screen_append, encode_append, ← hd]
    cases hp with
    | fails => exact absurd rfl hno
    | shows h => rw [List.append_assoc _ (held r.2), h]; simp [held, screen]
    | asks1 h => rw [List.append_assoc _ (held r.2), h]; simp [held, screen]
    | asks2 h => rw [List.append_assoc _ (held r.2), h]; simp [held, screen]
  · intro hno
    rw [sent_append, typed_append, ht, hi.sent fun e h => hno e (by simp [h])]
    cases hp <;> simp [sent]
  · intro b' hb'; cases hp <;> simp at hb'

theorem inv_snoc {P es r e} (hP : Good P) (hi : Inv P es r) (hp : Possible r.1 e) (hn : ¬ Ended r.1) : Inv P (es ++ [e]) (r.1 ++ (step P r.2 e).1, (step P r.2 e).2) := by
  obtain ⟨as, m⟩ := r
  have hm : m ≠ .over := fun h => hn (hi.ended.2 h)
  have hw : ¬ Asked as ↔ m ≠ .waits := not_congr hi.asked
  have hd := hi.data hm
  simp only at hd hm hn hw ⊢
  -- steps without data and without processing
  have plain : ∀ (new : List Act) (m' : Mode), received [e] = [] → screen new = [] → encode [] ++ held m' = held m ∨ m' = .over → (new ≠ [] ∨ (m' = m)) →
      (new ≠ [] → (Asked new ↔ m' = .waits)) → (Ended new ↔ m' = .over) → ((∀ e, .fails e ∉ new) → sent new = typed [e]) → ((∀ b, m' ≠ .first b) ∨ (new = [] ∧ m' = m)) →
      Inv P (es ++ [e]) (as ++ new, m') := by
    intro new m' h1 h2 h3 h4 h5 h6 h7 h8
    refine ⟨?_, ?_, ?_, ?_, ?_⟩
    · by_cases hne : new = []
      · subst hne
        rcases h4 with h4 | rfl
        · exact absurd rfl h4
        · simpa using hi.asked
      · simp only [asked_append_nonempty hne]; exact h5 hne
    · simp only [ended_append, hn, false_or]; exact h6
    · intro hno
      rw [received_append, h1, screen_append, h2, List.append_nil, List.append_nil, ← hd]
      rcases h3 with h3 | h3
      · simp only [encode, List.flatMap_nil, List.nil_append] at h3; rw [← h3]
      · exact absurd h3 hno
    · intro hno
      rw [sent_append, typed_append, hi.sent fun e h => hno e (by simp [h]), h7 fun e h => hno e (by simp [h])]
    · intro b hb
      rcases h8 with h8 | ⟨rfl, rfl⟩
      · exact absurd hb (h8 b)
      · simpa using hi.first b hb
  cases m with
  | over => exact absurd rfl hm
  | waits =>
    have ha : Asked as := hi.asked.2 rfl
    cases e with
    | data b => exact absurd ha hp
    | quiet => exact absurd ha hp
    | eof => exact absurd ha hp
    | line s => exact plain _ _ rfl rfl (.inl rfl) (by simp [step]) (by simp [step, Asked]) (by simp [step, Ended]) (by simp [step, sent, typed]) (by simp [step])
    | ctrlD => exact plain _ _ rfl rfl (.inr rfl) (by simp [step]) (by simp [step, Asked]) (by simp [step, Ended]) (by simp [step, sent, typed]) (by simp [step])
    | ctrlC => exact plain _ _ rfl rfl (.inl rfl) (by simp [step]) (by simp [step, Asked]) (by simp [step, Ended]) (by simp [step, sent, typed]) (by simp [step])
  | reads =>
    cases e with
    | data b => exact inv_process hP hi (by simp) (b := b) (by simp [received]) rfl (processed hP _)
    | quiet => exact plain _ _ rfl rfl (.inl rfl) (.inr rfl) (by simp [step]) (by simp [step, Ended]) (by simp [step, sent, typed]) (by simp [step])
    | eof => exact plain _ _ rfl rfl (.inr rfl) (by simp [step]) (by simp [step, Asked]) (by simp [step, Ended]) (by simp [step, sent, typed]) (by simp [step])
    | line s => exact absurd (hi.asked.1 hp) (by simp)
    | ctrlD => exact absurd (hi.asked.1 hp) (by simp)
    | ctrlC => exact plain _ _ rfl rfl (.inl rfl) (by simp [step]) (by simp [step, Asked]) (by simp [step, Ended]) (by simp [step, sent, typed]) (by simp [step])
  | gathers val got =>
    cases e with
    | data b =>
      refine ⟨?_, ?_, ?_, ?_, ?_⟩
      · simpa [step] using hi.asked
      · simpa [step] using hi.ended
      · intro _; simp only [step, List.append_nil, held] at hd ⊢; rw [received_append, ← hd]; simp [received]
      · intro hno; simp only [step, List.append_nil] at hno ⊢; rw [typed_append, hi.sent hno]; simp [typed]
      · intro b' hb'; simp [step] at hb'
    | quiet =>
      cases got with
      | true => exact inv_process hP hi (by simp) (b := []) rfl rfl (by simpa [step, held] using processed hP val)
      | false => exact plain _ _ rfl rfl (.inl rfl) (.inr rfl) (by simp [step]) (by simp [step, Ended]) (by simp [step, sent, typed]) (by simp [step])
    | eof => exact plain _ _ rfl (by simp [step, screen]) (.inr (by simp [step])) (by simp [step]) (by simp [step, Asked]) (by simp [step, Ended]) (by simp [step, sent, typed]) (by simp [step])
    | line s => exact absurd (hi.asked.1 hp) (by simp)
    | ctrlD => exact absurd (hi.asked.1 hp) (by simp)
    | ctrlC => exact plain _ _ rfl (by simp [step, screen]) (.inr (by simp [step])) (by simp [step]) (by simp [step, Asked]) (by simp [step, Ended]) (by simp [step]) (by simp [step])
  | first val =>
    cases e with
    | data b =>
      have has : as = [] := hi.first val rfl
      subst has
      simp only [step, firstLine]
      split
      · split
        · rename_i hdec
          exact inv_process hP hi (by simp) (b := b) (by simp [received]) rfl (.fails hdec)
        · split
          · rename_i ds _
            have := inv_process hP hi (by simp) (b := b) (e := .data b) (by simp [received]) rfl (processed hP (val ++ b))
            refine ⟨?_, ?_, ?_, ?_, ?_⟩
            · have h := this.asked
              have hne : (process P (val ++ b)).1 ≠ [] := by have := processed hP (val ++ b); generalize process P (val ++ b) = x at this; cases this <;> simp
              simp only [List.nil_append] at h ⊢
              rw [← h, ← List.singleton_append, asked_append_nonempty hne]
            · have h := this.ended
              simp only [List.nil_append] at h ⊢
              rw [← h]; simp [Ended]
            · exact this.data
            · intro hno
              exact this.sent fun e h => hno e (by simp at h ⊢; exact h)
            · intro b' hb'
              have := this.first b' hb'
              have h2 := processed hP (val ++ b)
              simp only at this hb'
              generalize process P (val ++ b) = x at this hb' h2
              cases h2 <;> simp at this
          · refine ⟨by simp [Asked], by simp [Ended], fun h => absurd rfl h, fun h => absurd (by simp) (h .assertion), by simp⟩
      · refine ⟨by simp [Asked], by simp [Ended], fun _ => ?_, fun _ => ?_, fun _ _ => rfl⟩
        · simp only [held, screen] at hd ⊢; simp [received_append, ← hd, received, screen]
        · rw [typed_append, ← hi.sent (by simp)]; simp [typed, sent]
    | quiet => exact plain _ _ rfl rfl (.inl rfl) (.inr rfl) (by simp [step]) (by simp [step, Ended]) (by simp [step, sent, typed]) (.inr ⟨rfl, rfl⟩)
    | eof => exact plain _ _ rfl rfl (.inr rfl) (by simp [step]) (by simp [step, Asked]) (by simp [step, Ended]) (by simp [step, sent, typed]) (by simp [step])
    | line s => exact absurd (hi.asked.1 hp) (by simp)
    | ctrlD => exact absurd (hi.asked.1 hp) (by simp)
    | ctrlC => exact plain _ _ rfl rfl (.inr rfl) (by simp [step]) (by simp [step, Asked]) (by simp [step, Ended]) (by simp [step]) (by simp [step])

theorem connect_snoc (P es e) : connect P (es ++ [e]) = ((connect P es).1 ++ (step P (connect P es).2 e).1, (step P (connect P es).2 e).2) := by
  simp [connect, run_append, run]

theorem snoc_ind {α} {p : List α → Prop} (h0 : p []) (h1 : ∀ l x, p l → p (l ++ [x])) (l : List α) : p l := by
  have : ∀ l : List α, p l.reverse := fun l => by
    induction l with
    | nil => exact h0
    | cons x l ih => rw [List.reverse_cons]; exact h1 _ _ ih
  simpa using this l.reverse

theorem inv {P} (hP : Good P) (es : List Ev) : Legal (fun es => (connect P es).1) es → Inv P es (connect P es) := by
  induction es using snoc_ind with
  | h0 => exact fun _ => ⟨by simp [connect, run, Asked], by simp [connect, run, Ended], by simp [connect, run, held, screen, received, encode], by simp [connect, run, sent, typed], fun _ _ => rfl⟩
  | h1 es e ih =>
    intro hl
    have ⟨h1, h2, h3⟩ := legal_snoc hl
    rw [connect_snoc]
    exact inv_snoc hP (ih h1) h2 h3

/-! ## The first line -/

theorem after_append (s t) : after s (s ++ t) = some t := by
  induction s with
  | nil => simp [after]
  | cons c s ih => simp [after, ih]

theorem after_some {s t u} (h : after s t = some u) : t = s ++ u := by
  induction s generalizing t with
  | nil => simp [after] at h; simp [h]
  | cons c s ih =>
    cases t with
    | nil => simp [after] at h
    | cons d t =>
      simp only [after] at h
      split at h
      · rename_i e; subst e; rw [ih h]; rfl
      · cases h

theorem matchAt_not {c t} (h : c ≠ 's') : matchAt (c :: t) = none := by
  have : after "session ".toList (c :: t) = none := by
    simp [after, Ne.symm h]
  simp only [matchAt, this]

theorem findall_skip (k : Nat) (s t : List Char) (h : s.length = k) : findall k (s ++ t) = findall 0 t := by
  induction s generalizing k with
  | nil => subst h; rfl
  | cons c s ih =>
    subst h
    simp only [List.length_cons, List.cons_append, findall]
    exact ih _ rfl

theorem findall_none {s t : List Char} (h : 's' ∉ s) : findall 0 (s ++ t) = findall 0 t := by
  induction s with
  | nil => rfl
  | cons c s ih =>
    simp only [List.mem_cons, not_or] at h
    simp only [List.cons_append, findall, matchAt_not (Ne.symm h.1)]
    exact ih h.2

theorem takeWhile_all {p : Char → Bool} {a b : List Char} (ha : ∀ c ∈ a, p c = true) (hb : ∀ c, b.head? = some c → p c = false) :
    (a ++ b).takeWhile p = a ∧ (a ++ b).dropWhile p = b := by
  induction a with
  | nil =>
    cases b with
    | nil => simp
    | cons c b => have := hb c rfl; simp [this]
  | cons c a ih =>
    have hc := ha c (by simp)
    have := ih fun d hd => ha d (by simp [hd])
    simp [hc, this]

theorem toString_digits (n : Nat) : (toString n).toList = Nat.toDigits 10 n := Nat.toList_repr

theorem greeting_parts (d tail : List Char) : "REPL session ".toList ++ d ++ " connected.".toList ++ tail = "REPL ".toList ++ ("session ".toList ++ (d ++ (" connected".toList ++ ('.' :: tail)))) := by
  have h1 : "REPL session ".toList = "REPL ".toList ++ "session ".toList := by decide
  have h2 : " connected.".toList = " connected".toList ++ ['.'] := by decide
  rw [h1, h2]
  simp only [List.append_assoc, List.singleton_append]

theorem findall_greeting (n : Nat) (tail : List Char) (ht : 's' ∉ tail) : findall 0 (greeting n tail) = [Nat.toDigits 10 n] := by
  have hd : ∀ c ∈ Nat.toDigits 10 n, c.isDigit = true := fun c hc => Nat.isDigit_of_mem_toDigits (by omega) (by omega) hc
  have hne : Nat.toDigits 10 n ≠ [] := Nat.toDigits_ne_nil
  have hg : greeting n tail = "REPL ".toList ++ ("session ".toList ++ (Nat.toDigits 10 n ++ (" connected".toList ++ ('.' :: tail)))) := by
    unfold greeting; simp only [toString_digits]; exact greeting_parts _ _
  have hm : matchAt ("session ".toList ++ (Nat.toDigits 10 n ++ (" connected".toList ++ ('.' :: tail)))) = some (Nat.toDigits 10 n, 8 + (Nat.toDigits 10 n).length + 10) := by
    have hw := takeWhile_all (p := Char.isDigit) (a := Nat.toDigits 10 n) (b := " connected".toList ++ ('.' :: tail)) hd (by intro c hc; simp at hc; subst hc; decide)
    simp only [matchAt, after_append, hw.1, hw.2]
  rw [hg, findall_none (by decide)]
  have : "session ".toList ++ (Nat.toDigits 10 n ++ (" connected".toList ++ ('.' :: tail))) = 's' :: ("ession ".toList ++ Nat.toDigits 10 n ++ " connected".toList ++ ('.' :: tail)) := by simp
  rw [this] at hm ⊢
  simp only [findall, hm]
  rw [findall_skip _ ("ession ".toList ++ Nat.toDigits 10 n ++ " connected".toList) _ (by simp; omega)]
  have := findall_none (s := '.' :: tail) (t := []) (by simpa using ht)
  rw [List.append_nil] at this
  rw [this]; rfl

theorem toInt_digits (n : Nat) : toInt (Nat.toDigits 10 n) = n := Nat.ofDigitChars_ten_toDigits

theorem takeWhile_line {l rest : List Char} (h : '\n' ∉ l) : (l ++ '\n' :: rest).takeWhile (· != '\n') = l :=
  (takeWhile_all (p := (· != '\n')) (fun c hc => by simp; rintro rfl; exact h hc) (by simp)).1

theorem run_first {P} (val : Bytes) (bs : List Bytes) (h : ∀ b ∈ bs, (10 : UInt8) ∉ b) (hv : (10 : UInt8) ∉ val) :
    run P (.first val) (bs.map .data) = ([], .first (val ++ bs.flatten)) := by
  induction bs generalizing val with
  | nil => simp [run]
  | cons b bs ih =>
    have hb := h b (by simp)
    have hvb : (10 : UInt8) ∉ val ++ b := by simp [hv, hb]
    have hc : (val ++ b).contains 10 = false := by simpa using hvb
    simp only [List.map_cons, run, step, firstLine, hc]
    simp [ih (val ++ b) (fun b' hb' => h b' (by simp [hb'])) hvb]

theorem run_gathers {P} (val : Bytes) (got : Bool) (bs : List Bytes) : run P (.gathers val got) (bs.map .data) = ([], .gathers (val ++ bs.flatten) (got || !bs.isEmpty)) := by
  induction bs generalizing val got with
  | nil => simp [run]
  | cons b bs ih => simp [run, step, ih]

theorem run_reads {P} (hP : Good P) (ts : List (List Char)) (h : ∀ t ∈ ts, ¬ P.ps1 <:+ t ∧ ¬ P.ps2 <:+ t) :
    run P .reads (ts.map fun t => .data (encode t)) = (ts.map .shows, .reads) := by
  induction ts with
  | nil => rfl
  | cons t ts ih =>
    have ht := h t (by simp)
    have hp := processed hP (encode t)
    have hx : process P (encode t) = ([.shows t], .reads) := by
      generalize process P (encode t) = x at hp
      cases hp with
      | fails hd => rw [decode_encode] at hd; cases hd
      | shows hd => rw [encode_inj hd]
      | asks1 hd => exact absurd ⟨_, (encode_inj hd).symm⟩ ht.1
      | asks2 hd => exact absurd ⟨_, (encode_inj hd).symm⟩ ht.2
    simp [run, step, hx, ih fun u hu => h u (by simp [hu])]

theorem process_prompt {P} (hP : Good P) {t p : List Char} (hp : p = P.ps1 ∨ (p = P.ps2 ∧ ¬ P.ps1 <:+ t ++ p)) :
    process P (encode (t ++ p)) = ([.shows t, .asks p], .waits) := by
  have h := processed hP (encode (t ++ p))
  generalize process P (encode (t ++ p)) = x at h
  cases h with
  | fails hd => rw [decode_encode] at hd; cases hd
  | shows hd h1 h2 =>
    have := encode_inj hd
    subst this
    rcases hp with rfl | ⟨rfl, _⟩
    · exact absurd ⟨_, rfl⟩ h1
    · exact absurd ⟨_, rfl⟩ h2
  | asks1 hd =>
    have := encode_inj hd
    rcases hp with rfl | ⟨rfl, hno⟩
    · rw [List.append_cancel_right this]
    · exact absurd ⟨_, this.symm⟩ hno
  | asks2 hd h1 =>
    have := encode_inj hd
    rcases hp with rfl | ⟨rfl, hno⟩
    · exact absurd ⟨_, this⟩ h1
    · rw [List.append_cancel_right this]


theorem matchAt_some {t ds : List Char} {n : Nat} (h : matchAt t = some (ds, n)) :
    ds ≠ [] ∧ (∀ d ∈ ds, d.isDigit = true) ∧ ∃ post, t = "session ".toList ++ ds ++ " connected".toList ++ post := by
  unfold matchAt at h
  split at h
  · cases h
  · rename_i u hu
    split at h
    · cases h
    · rename_i es hne
      split at h
      · cases h
      · rename_i v hv
        simp only [Option.some.injEq, Prod.mk.injEq] at h
        obtain ⟨rfl, _⟩ := h
        refine ⟨hne, ?_, v, ?_⟩
        · exact List.all_eq_true.1 List.all_takeWhile
        · rw [after_some hu, List.append_assoc, List.append_assoc, ← after_some hv, List.takeWhile_append_dropWhile]

theorem findall_mem {k : Nat} {t ds : List Char} (h : ds ∈ findall k t) :
    ds ≠ [] ∧ (∀ d ∈ ds, d.isDigit = true) ∧ ∃ pre post, t = pre ++ "session ".toList ++ ds ++ " connected".toList ++ post := by
  induction t generalizing k with
  | nil => simp [findall] at h
  | cons c t ih =>
    have hrec : ∀ k, ds ∈ findall k t → ds ≠ [] ∧ (∀ d ∈ ds, d.isDigit = true) ∧ ∃ pre post, c :: t = pre ++ "session ".toList ++ ds ++ " connected".toList ++ post := by
      intro k h
      obtain ⟨h1, h2, pre, post, h3⟩ := ih h
      exact ⟨h1, h2, c :: pre, post, by rw [h3]; simp⟩
    cases k with
    | succ k => exact hrec k (by simpa [findall] using h)
    | zero =>
      simp only [findall] at h
      split at h
      · exact hrec 0 h
      · rename_i es n hm
        rcases List.mem_cons.1 h with rfl | h
        · obtain ⟨h1, h2, post, h3⟩ := matchAt_some hm
          exact ⟨h1, h2, [], post, by rw [h3]; simp⟩
        · exact hrec _ h

theorem announced_mono {n : Nat} {a b : Bytes} (h : Announced n a) : Announced n (a ++ b) := by
  obtain ⟨t, p, d, q, h1, h2⟩ := h
  exact ⟨t, p, d, q, h1.trans (List.prefix_append a b), h2⟩

theorem process_pairs {P : Prompts} {val : Bytes} {n : Nat} : .pairs n ∉ (process P val).1 := by
  simp only [process]
  split <;> split <;> (try split) <;> simp

theorem process_first {P : Prompts} {val w : Bytes} : (process P val).2 ≠ .first w := by
  simp only [process]
  split <;> split <;> (try split) <;> simp

theorem announced (P : Prompts) (es : List Ev) :
    (∀ val, (connect P es).2 = .first val → val = received es) ∧ ∀ n, .pairs n ∈ (connect P es).1 → Announced n (received es) := by
  induction es using snoc_ind with
  | h0 => simp [connect, run, received]
  | h1 es e ih =>
    rw [connect_snoc, received_append]
    obtain ⟨ih1, ih2⟩ := ih
    generalize connect P es = r at *
    rcases r with ⟨as, m⟩
    simp only at ih1 ih2 ⊢
    have hfl : ∀ val b, m = .first val → e = .data b →
        (∀ w, (firstLine P (val ++ b)).2 = .first w → w = received es ++ received [e]) ∧ ∀ n, .pairs n ∈ (firstLine P (val ++ b)).1 → Announced n (received es ++ received [e]) := by
      intro val b hm he
      have hv : received es ++ received [e] = val ++ b := by rw [← ih1 val hm, he]; simp [received]
      rw [hv]
      unfold firstLine
      split
      · split
        · simp
        · rename_i text ht
          split
          · rename_i ds hds
            refine ⟨fun w h => absurd h process_first, fun n h => ?_⟩
            rcases List.mem_cons.1 h with h | h
            · obtain ⟨h1, h2, pre, post, h3⟩ := findall_mem (ds := ds) (k := 0) (t := text.takeWhile (· != '\n')) (by rw [hds]; simp)
              cases h
              exact ⟨text, pre, ds, post, by rw [encode_of_decode ht]; exact List.prefix_rfl, h1, h2, rfl, h3⟩
            · exact absurd h process_pairs
          · simp
      · simp
    have key : (∀ val, (step P m e).2 = .first val → val = received es ++ received [e]) ∧ ∀ n, .pairs n ∈ (step P m e).1 → Announced n (received es ++ received [e]) := by
      cases m with
      | first val => cases e with
        | data b => exact hfl val b rfl rfl
        | _ => simp [step, received, ih1 val rfl]
      | reads => cases e <;> simp [step, process_first, process_pairs]
      | waits => cases e <;> simp [step]
      | gathers v g => cases e <;> cases g <;> simp [step, process_first, process_pairs]
      | over => cases e <;> simp [step]
    refine ⟨key.1, fun n h => ?_⟩
    rcases List.mem_append.1 h with h | h
    · exact announced_mono (ih2 n h)
    · exact key.2 n h

end Unpy.Proof.Client

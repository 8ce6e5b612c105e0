import Verif.Proof.Net
/-!
# Properties C51, C52, C69: message framing and byte sources
-/
namespace Unpy.Props
open Unpy Unpy.Net Unpy.Net.Spec

/-! ## C51 -/

private theorem receives_messages {parse : Bytes → Except PyErr Int} (hp : ReadsDecimal parse) {c : Nat} {tail : Bytes}
    (htail : ¬ prefix5 <:+: tail) : ∀ (ms : List (Bytes × Bytes)) (st : St), Small c st →
    (∀ m ∈ ms, 6 + (digits m.2.length).length + c ≤ 4096) → (∀ m ∈ ms, ¬ prefix5 <:+: m.1) →
    stream st = messages ms ++ tail → Receives parse st (ms.map Prod.snd)
  | [], st, _, _, _, hst => by
      obtain ⟨st', h⟩ := decode_junk (parse := parse) _ st (Nat.le_refl _) (by rw [hst]; simpa [messages] using htail)
      exact .done h
  | (j, b) :: ms, st, hsm, hb, hj, hst => by
      have hb0 := hb (j, b) (by simp)
      obtain ⟨st', h1, h2, h3⟩ := decode_message hp hb0 (messages ms ++ tail) _ st j (Nat.le_refl _) hsm
        (hj (j, b) (by simp)) (by rw [hst, messages]; simp)
      exact .next h1 (receives_messages hp htail ms st' h2 (fun m hm => hb m (by simp [hm]))
        (fun m hm => hj m (by simp [hm])) h3)

/-- C51: decoding a stream of encoded messages gives back exactly the bodies, in order, and then `None`, however the
stream is split into chunks, and with junk before, between and after the messages, as long as it does not hold the
start of a message.  Missing: a chunk and a header (6 bytes and the length of the body in decimal) may together have
at most 4096 bytes. -/
theorem C51_round_trip_partial (parse : Bytes → Except PyErr Int) (hp : ReadsDecimal parse)
    (ms : List (Bytes × Bytes)) (tail : Bytes) (chunks : List Bytes) (c : Nat)
    (hchunks : ∀ ch ∈ chunks, ch.length ≤ c)
    (hsize : ∀ m ∈ ms, 6 + (digits m.2.length).length + c ≤ 4096)
    (hjunk : ∀ m ∈ ms, ¬ prefix5 <:+: m.1) (htail : ¬ prefix5 <:+: tail)
    (hstream : chunks.flatten = messages ms ++ tail) :
    Receives parse ⟨[], chunks⟩ (ms.map Prod.snd) :=
  receives_messages hp htail ms _ ⟨by simp, hchunks⟩ hsize hjunk (by simpa [stream] using hstream)

/-- Two messages, the first with a body that looks like a message, junk with a sync byte, split in the header. -/
example : Receives decimal ⟨[], [[255, 255, 118], [48, 49, 108, 54, 59, 255, 118, 48], [49, 108, 49], [],
    [7, 255, 118, 48, 49, 108, 48, 59, 9]]⟩ [[255, 118, 48, 49, 108, 49], []] :=
  C51_round_trip_partial decimal decimal_digits [([255], [255, 118, 48, 49, 108, 49]), ([7], [])] [9] _ 100
    (by decide) (by decide) (by decide) (by decide) (by decide)

private theorem after_messages {parse : Bytes → Except PyErr Int} (hp : ReadsDecimal parse) {c : Nat} {raw : Bytes} : ∀ (ms : List (Bytes × Bytes)) (st : St), Small c st →
    (∀ m ∈ ms, 6 + (digits m.2.length).length + c ≤ 4096) → (∀ m ∈ ms, ¬ prefix5 <:+: m.1) →
    stream st = messages ms ++ raw → ∃ st', After parse st (ms.map Prod.snd) st' ∧ stream st' = raw
  | [], st, _, _, _, hst => ⟨st, .none, by simpa [messages] using hst⟩
  | (j, b) :: ms, st, hsm, hb, hj, hst => by
      obtain ⟨st1, h1, h2, h3⟩ := decode_message hp (hb (j, b) (by simp)) (messages ms ++ raw) _ st j (Nat.le_refl _) hsm
        (hj (j, b) (by simp)) (by rw [hst, messages]; simp)
      obtain ⟨st', h4, h5⟩ := after_messages hp ms st1 h2 (fun m hm => hb m (by simp [hm])) (fun m hm => hj m (by simp [hm])) h3
      exact ⟨st', .next h1 h4, h5⟩

/-- C51: after some messages one may go on with raw data of any form, even if it looks like a message: the data in the buffer, followed by what is read from the source from then on, is exactly
what was sent after the messages, however the stream is split into chunks.  Missing: as in `C51_round_trip_partial`. -/
theorem C51_raw_partial (parse : Bytes → Except PyErr Int) (hp : ReadsDecimal parse)
    (ms : List (Bytes × Bytes)) (raw : Bytes) (chunks : List Bytes) (c : Nat)
    (hchunks : ∀ ch ∈ chunks, ch.length ≤ c) (hsize : ∀ m ∈ ms, 6 + (digits m.2.length).length + c ≤ 4096)
    (hjunk : ∀ m ∈ ms, ¬ prefix5 <:+: m.1) (hstream : chunks.flatten = messages ms ++ raw) :
    ∃ st', After parse ⟨[], chunks⟩ (ms.map Prod.snd) st' ∧ getBufferedData st' ++ st'.src.flatten = raw :=
  after_messages hp ms ⟨[], chunks⟩ ⟨by simp, hchunks⟩ hsize hjunk (by simpa [stream] using hstream)

/-- A message of two bytes, then raw data that starts like a message -/
example : ∃ st', After decimal ⟨[], [[255, 118, 48], [49, 108, 50, 59, 7, 8, 255], [118, 48]]⟩ [[7, 8]] st' ∧ getBufferedData st' ++ st'.src.flatten = [255, 118, 48] :=
  C51_raw_partial decimal decimal_digits [([], [7, 8])] [255, 118, 48] _ 100 (by decide) (by decide) (by decide) (by decide)

/-- The data of the last chunk read is in the buffer. -/
example : (decodemsg decimal ⟨[], [[255, 118, 48], [49, 108, 50, 59, 7, 8, 255], [118, 48]]⟩).map (fun r => (getBufferedData r.2, r.2.src)) = some ([255], [[118, 48]]) := by decide

/-- C51 fails for a chunk of 4096 bytes: a message of that size, read in chunks of the default size, makes the decoder
raise `UnboundLocalError`. -/
theorem C51_large_message_refuted (parse : Bytes → Except PyErr Int) (body : Bytes)
    (h : 4096 ≤ (encodemsg body).length) :
    ∃ st', decodemsg parse ⟨[], bytessource (encodemsg body) 4096⟩ = some (.error .UnboundLocalError, st') := by
  obtain ⟨tl, htl⟩ : ∃ tl, encodemsg body = prefix5 ++ tl := ⟨_, by rw [encodemsg_eq, List.append_assoc]⟩
  have hsrc : ∃ cs, bytessource (encodemsg body) 4096 = (prefix5 ++ tl.take 4091) :: cs := by
    refine ⟨bytesChunks (encodemsg body) 4096 (encodemsg body).length 1, ?_⟩
    unfold bytessource
    rw [bytesChunks, if_neg (by omega), htl]
    rfl
  obtain ⟨cs, hcs⟩ := hsrc
  have hlen : (prefix5 ++ tl.take 4091).length = 4096 := by
    rw [htl] at h; simp [prefix5] at h ⊢; omega
  refine ⟨⟨prefix5 ++ tl.take 4091, cs⟩, ?_⟩
  rw [hcs]
  have h1 : synchronize ((prefix5 ++ tl.take 4091) :: cs) [] = (.ok (), ⟨prefix5 ++ tl.take 4091, cs⟩) := by
    rw [synchronize, if_neg (by simp)]
    cases cs <;> rw [synchronize, if_pos (by simp [prefix5, sync])] <;> simp [prefix5, sync]
  have h2 : readWhile (fun b => b.length < 5) cs (prefix5 ++ tl.take 4091) = (.ok (), ⟨prefix5 ++ tl.take 4091, cs⟩) := by
    cases cs <;> rw [readWhile, if_neg (by rw [hlen]; decide)]
  have h3 : findSemi none cs (prefix5 ++ tl.take 4091) = (.ok none, ⟨prefix5 ++ tl.take 4091, cs⟩) := by
    cases cs <;> rw [findSemi, if_neg (by rw [hlen]; decide)]
  obtain ⟨p1, p2, p3⟩ := (prefix5_iff (b := prefix5 ++ tl.take 4091) (by rw [hlen]; decide)).mp (List.prefix_append _ _)
  have h4 : attempt parse ⟨[], (prefix5 ++ tl.take 4091) :: cs⟩ =
      (.error (.err .UnboundLocalError), ⟨prefix5 ++ tl.take 4091, cs⟩) := by
    rw [attempt, h1]
    simp only [readHeader, h2, p1, p2, p3, ne_eq, not_true_eq_false, if_false, h3]
  rw [decodemsg_eq, decodeLoop, h4]

example : ∃ st', decodemsg decimal ⟨[], bytessource (encodemsg (List.replicate 5000 0)) 4096⟩ =
    some (.error .UnboundLocalError, st') :=
  C51_large_message_refuted _ _ (by rw [encodemsg_eq, List.length_append, List.length_cons, List.length_replicate]; omega)

/-- C51 fails for a header that comes in two chunks of which the second is large: the message is skipped. -/
theorem C51_split_header_refuted (parse : Bytes → Except PyErr Int) (body : Bytes) (hno : 0xff ∉ body)
    (h : 4096 ≤ (encodemsg body).length) :
    ∃ rest st', prefix5 ++ rest = encodemsg body ∧
      decodemsg parse ⟨[], [prefix5, rest]⟩ = some (.ok none, st') := by
  have hE : encodemsg body = prefix5 ++ (digits body.length ++ semi :: body) := by rw [encodemsg_eq, List.append_assoc]
  refine ⟨digits body.length ++ semi :: body, ⟨[], []⟩, hE.symm, ?_⟩
  generalize hr : digits body.length ++ semi :: body = rest at hE
  have hlen : 4096 ≤ (prefix5 ++ rest).length := by rw [← hE]; exact h
  have hns : sync ∉ rest := by
    rw [← hr]
    simp only [List.mem_append, List.mem_cons, not_or]
    refine ⟨fun h => ?_, by decide, hno⟩
    have := digits_range _ _ h
    simp [sync] at this
  have h1 : synchronize [prefix5, rest] [] = (.ok (), ⟨prefix5, [rest]⟩) := by rfl
  have h3 : findSemi none [rest] prefix5 = (.ok (some false), ⟨prefix5 ++ rest, []⟩) := by
    rw [findSemi, if_pos (by decide), if_neg (by decide), findSemi, if_neg (by omega)]
  have h4 : attempt parse ⟨[], [prefix5, rest]⟩ = (.error .parse, ⟨prefix5 ++ rest, []⟩) := by
    rw [attempt, h1]
    simp only
    rw [readHeader]
    have : readWhile (fun b => b.length < 5) [rest] prefix5 = (.ok (), ⟨prefix5, [rest]⟩) := by rfl
    simp only [this]
    rw [if_neg (by decide), if_neg (by decide), if_neg (by decide), h3]
  rw [decodemsg_step h4]
  have hns' : sync ∉ (prefix5 ++ rest).drop 1 := by
    have : (prefix5 ++ rest).drop 1 = [118, 48, 49, 108] ++ rest := rfl
    rw [this, List.mem_append, not_or]
    exact ⟨by decide, hns⟩
  have h5 : synchronize [] ((prefix5 ++ rest).drop 1) = (.error .eof, ⟨[], []⟩) := by
    rw [synchronize, if_neg (by simpa using hns')]
  rw [decodemsg_eq, decodeLoop, attempt]
  simp only [h5]

example : ∃ rest st', prefix5 ++ rest = encodemsg (List.replicate 5000 0) ∧
    decodemsg decimal ⟨[], [prefix5, rest]⟩ = some (.ok none, st') :=
  C51_split_header_refuted _ _ (fun h => by cases List.eq_of_mem_replicate h)
    (by rw [encodemsg_eq, List.length_append, List.length_cons, List.length_replicate]; omega)

/-! ## C52 -/

/-- C52: for every stream and every state of the buffer, `decodemsg` comes to an end.  It gives `None` only when the
source is exhausted; a body only if it stands in the stream right after a header, and the rest of the stream is
what is left; and if it raises, then either what `int` raises for a length, or `UnboundLocalError`. -/
theorem C52_ends (parse : Bytes → Except PyErr Int) (st : St) :
    ∃ r st', decodemsg parse st = some (r, st') ∧ stream st' <:+ stream st ∧
      (r = .ok none → st'.src = []) ∧
      (∀ body, r = .ok (some body) → ∃ junk field n, parse field = .ok n ∧
        stream st = junk ++ (prefix5 ++ field ++ 0x3b :: (body ++ stream st'))) ∧
      (∀ e, r = .error e → e = .UnboundLocalError ∨ ∃ field, parse field = .error e) := by
  obtain ⟨r, st', h1, h2, -, h3⟩ := decodeLoop_spec parse _ st (Nat.lt_succ_self _)
  refine ⟨r, st', by rw [decodemsg_eq]; exact h1, h2, ?_, ?_, ?_⟩
  · rintro rfl
    rcases h3 with ⟨-, h3⟩ | ⟨e, h, -⟩ | ⟨_, _, _, _, h, -⟩
    · exact h3
    · cases h
    · cases h
  · rintro body rfl
    rcases h3 with ⟨h, -⟩ | ⟨e, h, -⟩ | ⟨body', junk, field, n, h, hp, hs⟩
    · cases h
    · cases h
    · cases h; exact ⟨junk, field, n, hp, hs⟩
  · rintro e rfl
    rcases h3 with ⟨h, -⟩ | ⟨e', h, h3⟩ | ⟨_, _, _, _, h, -⟩
    · cases h
    · cases h; exact h3
    · cases h

/-- C52: on every stream in which a readable length and a `;` follow within `d` bytes wherever five bytes look like
the start of a message (unless the stream ends there), repeated decoding gives some bodies and finally `None`, and
never raises.  Missing: malformed lengths, and chunks so large that together with a header they exceed 4096 bytes. -/
theorem C52_survives_partial (parse : Bytes → Except PyErr Int) (st : St) (c d : Nat) (hcd : 6 + d + c ≤ 4096)
    (hbuf : st.buf.length ≤ c) (hchunks : ∀ ch ∈ st.src, ch.length ≤ c) (hgood : GoodHeaders parse d (stream st)) :
    ∃ bodies, Receives parse st bodies :=
  receives_good hcd _ st (Nat.le_refl _) ⟨by omega, hchunks⟩ hgood

/-- A wrong version, a lone sync byte, a truncated header. -/
example : ∃ bodies, Receives decimal ⟨[], [[255, 118, 48, 50, 108], [49, 59, 255], [255, 118, 48, 49, 108]]⟩ bodies :=
  C52_survives_partial decimal _ 100 100 (by omega) (by simp) (by decide) (by
    intro pre post h
    have hl := congrArg List.length h
    simp [stream, prefix5] at hl
    refine .inr ?_
    have h' : pre ++ prefix5 ++ post = [255, 118, 48, 50, 108, 49, 59, 255, 255, 118, 48, 49, 108] := h.symm
    have hp : pre.length = 8 := by
      have hx : ∀ k, k ≤ 7 → ((pre ++ prefix5 ++ post).drop k).take 5 ≠ prefix5 := by
        rw [h']; decide
      have : ((pre ++ prefix5 ++ post).drop pre.length).take 5 = prefix5 := by
        simp [prefix5]
      have hnot : ¬ pre.length ≤ 7 := fun hle => hx _ hle this
      omega
    have : post = [] := List.eq_nil_of_length_eq_zero (by omega)
    subst this; simp)

/-- C52 fails for a length that `int` does not accept: the decoder raises, and as it leaves its buffer as it was,
every later call raises again. -/
theorem C52_bad_length_refuted (parse : Bytes → Except PyErr Int) (field post : Bytes) (e : PyErr)
    (hbad : parse field = .error e) (hno : 0x3b ∉ field) (hlen : 6 + field.length + post.length < 4096) :
    decodemsg parse ⟨prefix5 ++ field ++ 0x3b :: post, []⟩ =
      some (.error e, ⟨prefix5 ++ field ++ 0x3b :: post, []⟩) := by
  generalize hB : prefix5 ++ field ++ 0x3b :: post = B
  have hBlen : B.length < 4096 := by rw [← hB]; simp [prefix5]; omega
  have h1 : synchronize [] B = (.ok (), ⟨B, []⟩) := by
    rw [synchronize, if_pos (by rw [← hB]; simp [prefix5, sync])]
    rw [← hB]; simp [prefix5, sync]
  rcases hh : readHeader parse ⟨B, []⟩ with ⟨r, st'⟩
  have hS : stream ⟨B, []⟩ = B := by simp [stream]
  have hpre : prefix5 <+: B := ⟨field ++ 0x3b :: post, by rw [← hB]; simp⟩
  obtain ⟨hs, hc⟩ := readHeader_spec _ _ _ _ hh
  have hsrc : st'.src = [] := List.suffix_nil.mp hs
  have hbuf : stream st' = stream ⟨B, []⟩ → st' = ⟨B, []⟩ := by
    intro h
    rcases st' with ⟨b, s⟩
    cases hsrc
    simpa [stream] using h
  have hr : r = .error (.err e) ∧ st' = ⟨B, []⟩ := by
    rcases hc with ⟨-, -, -, h5⟩ | ⟨-, h2, -, h4, -⟩ | ⟨h2, -, h4, -⟩ | ⟨field', rest, hf, hS', h3⟩
    · exfalso
      rw [hS] at h5
      rcases h5 with h5 | ⟨h5, -⟩
      · rw [← hB] at h5; simp [prefix5] at h5; omega
      · apply h5; rw [← hB]; simp [semi]
    · rw [hbuf h2] at h4; exact absurd hpre h4
    · rw [hbuf h2] at h4; simp only at h4; omega
    · have hfe : field = field' := by
        have e1 : field ++ semi :: post = field' ++ semi :: rest := by
          rw [hS, ← hB] at hS'
          simp only [List.append_assoc] at hS'
          exact List.append_cancel_left hS'
        rw [← takeWhile_head (p := semi) (tl := post) hno, e1, takeWhile_head hf]
      subst hfe
      rcases h3 with ⟨e', he, rfl, h6⟩ | ⟨n, hn, -⟩
      · rw [hbad] at he; cases he; exact ⟨rfl, hbuf h6⟩
      · rw [hbad] at hn; cases hn
  obtain ⟨rfl, rfl⟩ := hr
  rw [decodemsg_eq, decodeLoop, attempt]
  simp only [h1, hh]

/-- `\xffv01lx;` and then a good message, which never arrives. -/
example : decodemsg decimal ⟨prefix5 ++ [120] ++ 0x3b :: encodemsg [1, 2, 3], []⟩ =
    some (.error .ValueError, ⟨prefix5 ++ [120] ++ 0x3b :: encodemsg [1, 2, 3], []⟩) :=
  C52_bad_length_refuted decimal [120] (encodemsg [1, 2, 3]) .ValueError (by decide) (by decide) (by decide)

/-! ## C69 -/

private theorem bytesChunks_spec (data : Bytes) (cs : Nat) (hcs : 1 ≤ cs) : ∀ (fuel j : Nat),
    data.length < fuel + j * cs →
    (bytesChunks data cs fuel j).flatten = data.drop (j * cs) ∧
    (∀ ch ∈ bytesChunks data cs fuel j, ch ≠ [] ∧ ch.length ≤ cs) ∧
    (∀ ch ∈ (bytesChunks data cs fuel j).dropLast, ch.length = cs)
  | 0, j, h => by
      rw [bytesChunks]
      exact ⟨by rw [List.drop_eq_nil_of_le (by omega)]; rfl, by simp, by simp⟩
  | fuel + 1, j, h => by
      rw [bytesChunks]
      split
      · exact ⟨by rw [List.drop_eq_nil_of_le (by omega)]; rfl, by simp, by simp⟩
      · rename_i hlt
        have e : (j + 1) * cs - j * cs = cs := by rw [Nat.succ_mul]; omega
        have e' : (j + 1) * cs = j * cs + cs := by rw [Nat.succ_mul]
        obtain ⟨h1, h2, h3⟩ := bytesChunks_spec data cs hcs fuel (j + 1) (by rw [e']; omega)
        rw [e]
        refine ⟨?_, ?_, ?_⟩
        · rw [List.flatten_cons, h1, e', ← List.drop_drop, List.take_append_drop]
        · intro ch hc
          rcases List.mem_cons.mp hc with rfl | hc
          · refine ⟨fun h0 => ?_, by simp; omega⟩
            have := congrArg List.length h0
            simp at this; omega
          · exact h2 ch hc
        · intro ch hc
          cases hrest : bytesChunks data cs fuel (j + 1) with
          | nil => rw [hrest] at hc; simp at hc
          | cons d ds =>
            rw [hrest, List.dropLast_cons_cons] at hc
            rcases List.mem_cons.mp hc with rfl | hc
            · have : d ≠ [] := (h2 d (by rw [hrest]; simp)).1
              have hne : data.drop ((j + 1) * cs) ≠ [] := by
                rw [← h1, hrest]; simp [this]
              have : (j + 1) * cs < data.length := by
                apply Nat.lt_of_not_le; intro h; exact hne (List.drop_eq_nil_of_le h)
              simp; omega
            · exact h3 ch (by rw [hrest]; exact hc)

/-- C69: `bytessource` yields the data in chunks, none empty, all but the last of exactly `chunksize` bytes. -/
theorem C69_bytessource (data : Bytes) (chunksize : Nat) (h : 1 ≤ chunksize) :
    (bytessource data chunksize).flatten = data ∧
    (∀ ch ∈ bytessource data chunksize, ch ≠ [] ∧ ch.length ≤ chunksize) ∧
    (∀ ch ∈ (bytessource data chunksize).dropLast, ch.length = chunksize) := by
  simpa [bytessource] using bytesChunks_spec data chunksize h (data.length + 1) 0 (by omega)

example : bytessource [1, 2, 3, 4, 5] 2 = [[1, 2], [3, 4], [5]] := by decide

private theorem recv_spec (n : Nat) (hn : 1 ≤ n) (s : Sock) : ∃ k, 1 ≤ k ∧ k ≤ n ∧
    (recv n s).1 = s.stream.take k ∧ (recv n s).2.stream = s.stream.drop k := by
  unfold recv
  cases s.avail with
  | nil => exact ⟨n, hn, Nat.le_refl _, rfl, rfl⟩
  | cons a as => exact ⟨min n (max 1 a), by omega, by omega, rfl, rfl⟩

private theorem recvallLoop_spec : ∀ (fuel n : Nat) (out : Bytes) (s : Sock), n < fuel →
    ∃ s', (n ≤ s.stream.length → recvallLoop fuel n out s = some (some (out ++ s.stream.take n), s') ∧
        s'.stream = s.stream.drop n) ∧
      (s.stream.length < n → recvallLoop fuel n out s = some (none, s') ∧ s'.stream = [])
  | 0, n, _, _, h => by omega
  | fuel + 1, n, out, s, h => by
      rw [recvallLoop]
      by_cases hn : n = 0
      · subst hn; exact ⟨s, by simp, by omega⟩
      · rw [if_neg hn]
        obtain ⟨k, hk1, hk2, e1, e2⟩ := recv_spec n (by omega) s
        rcases hr : recv n s with ⟨data, s1⟩
        rw [hr] at e1 e2
        simp only at e1 e2 ⊢
        by_cases hd : s.stream = []
        · refine ⟨s1, fun h => ?_, fun h => ?_⟩
          · rw [hd] at h; simp at h; omega
          · rw [e1, hd]; exact ⟨by simp, by rw [e2, hd]; simp⟩
        · have hne : data.isEmpty = false := by
            rw [e1]; cases hs : s.stream with
            | nil => exact absurd hs hd
            | cons a l => obtain ⟨k, rfl⟩ : ∃ m, k = m + 1 := ⟨k - 1, by omega⟩
                          rfl
          have hpos : 0 < s.stream.length := List.length_pos_iff.mpr hd
          have hdl : data.length = min k s.stream.length := by rw [e1, List.length_take]
          have hs1 : s1.stream.length = s.stream.length - k := by rw [e2, List.length_drop]
          obtain ⟨s', h1, h2⟩ := recvallLoop_spec fuel (n - data.length) (out ++ data) s1 (by omega)
          refine ⟨s', fun h => ?_, fun h => ?_⟩
          · obtain ⟨h3, h4⟩ := h1 (by omega)
            have hk : data.length = k := by omega
            rw [hne]
            refine ⟨?_, ?_⟩
            · rw [if_neg (by simp), h3, hk, e1, e2, List.append_assoc]
              congr 3
              have : s.stream.take n = s.stream.take (k + (n - k)) := by congr 1; omega
              rw [this, List.take_add]
            · rw [h4, hk, e2, List.drop_drop]; congr 1; omega
          · obtain ⟨h3, h4⟩ := h2 (by omega)
            rw [hne]; exact ⟨by rw [if_neg (by simp), h3], h4⟩

/-- C69: `recvall` returns exactly the next `n` bytes and leaves the others, however many bytes each `recv` gives; and
`None`, if the stream ends first. -/
theorem C69_recvall (n : Nat) (s : Sock) :
    ∃ s', (n ≤ s.stream.length → recvall n s = some (some (s.stream.take n), s') ∧ s'.stream = s.stream.drop n) ∧
      (s.stream.length < n → recvall n s = some (none, s') ∧ s'.stream = []) := by
  simpa [recvall] using recvallLoop_spec (n + 1) n [] s (by omega)

example : recvall 4 ⟨[1, 2, 3, 4, 5], [1, 0, 7]⟩ = some (some [1, 2, 3, 4], ⟨[5], []⟩) := by decide

private theorem socketChunks_spec (cs : Nat) (hcs : 1 ≤ cs) : ∀ (fuel : Nat) (s : Sock), s.stream.length < fuel →
    (socketChunks cs fuel s).flatten = s.stream ∧ ∀ ch ∈ socketChunks cs fuel s, ch ≠ [] ∧ ch.length ≤ cs
  | 0, s, h => by omega
  | fuel + 1, s, h => by
      rw [socketChunks]
      obtain ⟨k, hk1, hk2, e1, e2⟩ := recv_spec cs hcs s
      rcases hr : recv cs s with ⟨data, s1⟩
      rw [hr] at e1 e2
      simp only at e1 e2 ⊢
      have hdl : data.length = min k s.stream.length := by rw [e1, List.length_take]
      split
      · have : s.stream = [] := List.eq_nil_of_length_eq_zero (by omega)
        rw [this]; simp
      · have hs1 : s1.stream.length = s.stream.length - k := by rw [e2, List.length_drop]
        obtain ⟨h1, h2⟩ := socketChunks_spec cs hcs fuel s1 (by omega)
        refine ⟨by rw [List.flatten_cons, h1, e1, e2, List.take_append_drop], fun ch hc => ?_⟩
        rcases List.mem_cons.mp hc with rfl | hc
        · rename_i hne; exact ⟨fun h0 => hne (by rw [h0]; rfl), by omega⟩
        · exact h2 ch hc

/-- C69: `socketsource` and `streamsource` yield every byte once, in nonempty chunks of at most `chunksize` bytes. -/
theorem C69_socketsource (chunksize : Nat) (h : 1 ≤ chunksize) (s : Sock) :
    (socketsource chunksize s).flatten = s.stream ∧
    ∀ ch ∈ socketsource chunksize s, ch ≠ [] ∧ ch.length ≤ chunksize :=
  socketChunks_spec chunksize h _ s (by omega)

example : socketsource 3 ⟨[1, 2, 3, 4, 5, 6], [1, 2]⟩ = [[1], [2, 3], [4, 5, 6]] := by decide

/-- C69: a netstring determines its contents, even if other data follows. -/
theorem C69_netstringify (a b x y : Bytes) (h : netstringify a ++ x = netstringify b ++ y) : a = b ∧ x = y := by
  have hcolon : ∀ n, (58 : UInt8) ∉ digits n := by
    intro n h
    have := digits_range _ _ h
    simp at this
  have e : digits a.length ++ 58 :: (a ++ 44 :: x) = digits b.length ++ 58 :: (b ++ 44 :: y) := by
    simpa [netstringify] using h
  have e1 : digits a.length = digits b.length := by
    rw [← takeWhile_head (tl := a ++ 44 :: x) (hcolon a.length), e, takeWhile_head (hcolon _)]
  have e2 := digits_inj e1
  rw [e1] at e
  have e3 := List.append_cancel_left e
  simp only [List.cons.injEq, true_and] at e3
  have e4 := List.append_inj e3 e2
  exact ⟨e4.1, by simpa using e4.2⟩

example : netstringify [104, 105] = [50, 58, 104, 105, 44] := by decide

/-- C69: and an encoded message determines its body, even if other data follows. -/
theorem C69_encodemsg (a b x y : Bytes) (h : encodemsg a ++ x = encodemsg b ++ y) : a = b ∧ x = y := by
  have e : digits a.length ++ semi :: (a ++ x) = digits b.length ++ semi :: (b ++ y) := by
    rw [encodemsg_eq, encodemsg_eq] at h
    simp only [List.append_assoc, List.cons_append] at h
    exact List.append_cancel_left h
  have e1 : digits a.length = digits b.length := by
    rw [← takeWhile_head (tl := a ++ x) (semi_not_digits a.length), e, takeWhile_head (semi_not_digits _)]
  have e2 := digits_inj e1
  rw [e1] at e
  have e3 := List.append_cancel_left e
  simp only [List.cons.injEq, true_and] at e3
  exact List.append_inj e3 e2

example : encodemsg [104, 105] = [255, 118, 48, 49, 108, 50, 59, 104, 105] := by decide

/-- C51: over a socket, whatever the network does to the stream.  Missing: as in `C51_round_trip_partial`. -/
theorem C51_socket_partial (parse : Bytes → Except PyErr Int) (hp : ReadsDecimal parse) (bodies : List Bytes)
    (chunksize : Nat) (hc : 1 ≤ chunksize) (avail : List Nat)
    (hsize : ∀ b ∈ bodies, 6 + (digits b.length).length + chunksize ≤ 4096) :
    Receives parse ⟨[], socketsource chunksize ⟨(bodies.map encodemsg).flatten, avail⟩⟩ bodies := by
  obtain ⟨h1, h2⟩ := C69_socketsource chunksize hc ⟨(bodies.map encodemsg).flatten, avail⟩
  have := C51_round_trip_partial parse hp (bodies.map (fun b => ([], b))) [] _ chunksize (fun ch hch => (h2 ch hch).2)
    (by simpa using hsize) (by intro m hm; simp at hm; obtain ⟨b, -, rfl⟩ := hm; simp [prefix5]) (by simp [prefix5])
    (by
      rw [h1]; simp only [List.append_nil]
      clear h1 h2 hsize
      induction bodies with
      | nil => rfl
      | cons b bs ih => simp [messages, ih])
  simpa [Function.comp_def] using this

example (b : Bytes) (hb : (digits b.length).length ≤ 90) (avail : List Nat) :
    Receives decimal ⟨[], socketsource 4000 ⟨encodemsg b ++ encodemsg b, avail⟩⟩ [b, b] := by
  simpa using C51_socket_partial decimal decimal_digits [b, b] 4000 (by omega) avail (by simp; omega)

end Unpy.Props

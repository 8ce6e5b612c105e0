import Verif.Spec.Net
namespace Unpy.Net
open Unpy Spec

theorem mem_dropWhile_head {p : UInt8} {l : Bytes} (h : p ∈ l) :
    ∃ junk tl, p ∉ junk ∧ l = junk ++ p :: tl ∧ l.dropWhile (fun b => b != p) = p :: tl := by
  induction l with
  | nil => simp at h
  | cons a l ih =>
    by_cases ha : a = p
    · subst ha; exact ⟨[], l, by simp, by simp, by simp⟩
    · have : p ∈ l := by simpa [Ne.symm ha] using h
      obtain ⟨j, tl, h1, h2, h3⟩ := ih this
      refine ⟨a :: j, tl, by simp [Ne.symm ha, h1], by simp [h2], ?_⟩
      rw [List.dropWhile_cons]
      simp [ha, h3]

theorem readWhile_spec (more : Bytes → Bool) (src : List Bytes) : ∀ (buf : Bytes) r st',
    readWhile more src buf = (r, st') →
    st'.buf ++ st'.src.flatten = buf ++ src.flatten ∧ st'.src <:+ src ∧
    ((r = .ok () ∧ more st'.buf = false) ∨ (r = .error .eof ∧ more st'.buf = true ∧ st'.src = [])) ∧
    (st' = ⟨buf, src⟩ ∨ ∃ b ch, more b = true ∧ ch ∈ src ∧ st'.buf = b ++ ch) := by
  induction src with
  | nil =>
    intro buf r st' h
    rw [readWhile] at h
    split at h <;> cases h <;> simp_all
  | cons c cs ih =>
    intro buf r st' h
    rw [readWhile] at h
    split at h
    · rename_i hm
      obtain ⟨h1, h2, h3, h4⟩ := ih _ _ _ h
      refine ⟨by simpa using h1, h2.trans (List.suffix_cons _ _), h3, .inr ?_⟩
      rcases h4 with h4 | ⟨b, ch, hb, hc, he⟩
      · exact ⟨buf, c, hm, by simp, by simp [h4]⟩
      · exact ⟨b, ch, hb, by simp [hc], he⟩
    · cases h; simp_all

theorem synchronize_spec (src : List Bytes) : ∀ (buf : Bytes) r st', synchronize src buf = (r, st') →
    (r = .ok () ∧ st'.src <:+ src ∧ (∃ junk tl, sync ∉ junk ∧ st'.buf = sync :: tl ∧
        buf ++ src.flatten = junk ++ (st'.buf ++ st'.src.flatten)) ∧
      (st'.buf.length ≤ buf.length ∨ ∃ ch ∈ src, st'.buf.length ≤ ch.length)) ∨
    (r = .error .eof ∧ st' = ⟨[], []⟩ ∧ sync ∉ buf ++ src.flatten) := by
  induction src with
  | nil =>
    intro buf r st' h
    rw [synchronize] at h
    split at h
    · rename_i hc
      cases h
      obtain ⟨j, tl, h1, h2, h3⟩ := mem_dropWhile_head (List.contains_iff_mem.mp hc)
      refine .inl ⟨rfl, by simp, ⟨j, tl, h1, h3, by simp [h2, h3]; rw [← h2, h3]⟩, .inl ?_⟩
      rw [h3, h2]; simp
    · cases h; rename_i hc; refine .inr ⟨rfl, rfl, ?_⟩; simpa using hc
  | cons c cs ih =>
    intro buf r st' h
    rw [synchronize] at h
    split at h
    · rename_i hc
      cases h
      obtain ⟨j, tl, h1, h2, h3⟩ := mem_dropWhile_head (List.contains_iff_mem.mp hc)
      refine .inl ⟨rfl, by simp, ⟨j, tl, h1, h3, ?_⟩, .inl ?_⟩
      · dsimp only; rw [h3]; conv => lhs; rw [h2]
        simp
      · dsimp only; rw [h3, h2]; simp
    · rename_i hc
      have hc : sync ∉ buf := by simpa using hc
      rcases ih _ _ _ h with ⟨h1, h2, ⟨j, tl, h3, h4, h5⟩, h6⟩ | ⟨h1, h2, h3⟩
      · refine .inl ⟨h1, h2.trans (List.suffix_cons _ _), ⟨buf ++ j, tl, by simp [hc, h3], h4, ?_⟩, .inr ?_⟩
        · simp only [List.flatten_cons, h5, List.append_assoc]
        · rcases h6 with h6 | ⟨ch, hc, h6⟩
          · exact ⟨c, by simp, h6⟩
          · exact ⟨ch, by simp [hc], h6⟩
      · refine .inr ⟨h1, h2, ?_⟩
        simp only [List.flatten_cons, List.mem_append, not_or] at h3 ⊢
        exact ⟨hc, h3⟩

theorem findSemi_spec (src : List Bytes) : ∀ (j : Option Bool) (buf : Bytes) r st', findSemi j src buf = (r, st') →
    st'.buf ++ st'.src.flatten = buf ++ src.flatten ∧ st'.src <:+ src ∧
    ((r = .ok (some true) ∧ semi ∈ st'.buf ∧
        (st' = ⟨buf, src⟩ ∨ ∃ b ch, semi ∉ b ∧ ch ∈ src ∧ st'.buf = b ++ ch)) ∨
     (r = .error .eof ∧ semi ∉ st'.buf ∧ st'.src = []) ∨
     (4096 ≤ st'.buf.length ∧ ((r = .ok j ∧ st' = ⟨buf, src⟩) ∨
        (r = .ok (some false) ∧ ∃ b ch, semi ∉ b ∧ ch ∈ src ∧ st'.buf = b ++ ch)))) := by
  induction src with
  | nil =>
    intro j buf r st' h
    rw [findSemi] at h
    split at h
    · split at h
      · rename_i hc; cases h; simp_all
      · rename_i hc; cases h; simp_all
    · cases h; simp_all
  | cons c cs ih =>
    intro j buf r st' h
    rw [findSemi] at h
    split at h
    · split at h
      · rename_i hc; cases h; simp_all
      · rename_i hc
        have hc : semi ∉ buf := by simpa using hc
        obtain ⟨h1, h2, h3⟩ := ih _ _ _ _ h
        refine ⟨by simpa using h1, h2.trans (List.suffix_cons _ _), ?_⟩
        rcases h3 with ⟨h3, h4, h5⟩ | h3 | ⟨h3, h4⟩
        · refine .inl ⟨h3, h4, .inr ?_⟩
          rcases h5 with h5 | ⟨b, ch, hb, hm, he⟩
          · exact ⟨buf, c, hc, by simp, by simp [h5]⟩
          · exact ⟨b, ch, hb, by simp [hm], he⟩
        · exact .inr (.inl h3)
        · refine .inr (.inr ⟨h3, .inr ?_⟩)
          rcases h4 with ⟨h4, h5⟩ | ⟨h4, b, ch, hb, hm, he⟩
          · exact ⟨h4, buf, c, hc, by simp, by simp [h5]⟩
          · exact ⟨h4, b, ch, hb, by simp [hm], he⟩
    · cases h; simp_all

theorem takeWhile_head {p : UInt8} {j tl : Bytes} (h : p ∉ j) :
    (j ++ p :: tl).takeWhile (fun b => b != p) = j := by
  induction j with
  | nil => simp
  | cons a j ih =>
    simp only [List.mem_cons, not_or] at h
    rw [List.cons_append, List.takeWhile_cons]
    simp [Ne.symm h.1, ih h.2]

theorem dropWhile_head {p : UInt8} {j tl : Bytes} (h : p ∉ j) :
    (j ++ p :: tl).dropWhile (fun b => b != p) = p :: tl := by
  induction j with
  | nil => simp
  | cons a j ih =>
    simp only [List.mem_cons, not_or] at h
    rw [List.cons_append, List.dropWhile_cons]
    simp [Ne.symm h.1, ih h.2]

theorem prefix5_iff {b : Bytes} (h : 5 ≤ b.length) :
    prefix5 <+: b ↔ b.take 1 = [sync] ∧ (b.drop 1).take 3 = magic ∧ (b.drop 4).take 1 = [ell] := by
  match b, h with
  | a0 :: a1 :: a2 :: a3 :: a4 :: rest, _ =>
    simp only [prefix5, List.cons_prefix_cons, List.nil_prefix, and_true, sync, magic, ell, List.take_succ_cons,
      List.take_zero, List.drop_succ_cons, List.drop_zero, List.cons.injEq]
    constructor
    · rintro ⟨h0, h1, h2, h3, h4⟩; exact ⟨h0.symm, ⟨h1.symm, h2.symm, h3.symm⟩, h4.symm⟩
    · rintro ⟨h0, ⟨h1, h2, h3⟩, h4⟩; exact ⟨h0.symm, h1.symm, h2.symm, h3.symm, h4.symm⟩

theorem flatten_suffix {a b : List Bytes} (h : a <:+ b) : a.flatten <:+ b.flatten := by
  obtain ⟨t, rfl⟩ := h
  exact ⟨t.flatten, by simp⟩

/-- Everything that `read_header` may do. -/
theorem readHeader_spec (parse : Bytes → Except PyErr Int) (st : St) (r st') (h : readHeader parse st = (r, st')) :
    st'.src <:+ st.src ∧
    ((r = .error .eof ∧ stream st' = stream st ∧ st'.src = [] ∧
        ((stream st).length < 5 ∨ (semi ∉ stream st ∧ prefix5 <+: stream st))) ∨
     (r = .error .parse ∧ stream st' = stream st ∧ 5 ≤ st'.buf.length ∧ ¬ prefix5 <+: st'.buf ∧
        (st'.buf.length ≤ st.buf.length ∨ ∃ ch ∈ st.src, st'.buf.length ≤ 4 + ch.length)) ∨
     (stream st' = stream st ∧ prefix5 <+: st'.buf ∧ 4096 ≤ st'.buf.length ∧
        ((r = .error (.err .UnboundLocalError) ∧
            (st'.buf.length ≤ st.buf.length ∨ ∃ ch ∈ st.src, st'.buf.length ≤ 4 + ch.length)) ∨
         (r = .error .parse ∧ ∃ b ch, semi ∉ b ∧ ch ∈ st.src ∧ st'.buf = b ++ ch))) ∨
     (∃ field rest, semi ∉ field ∧ stream st = prefix5 ++ field ++ semi :: rest ∧
        ((∃ e, parse field = .error e ∧ r = .error (.err e) ∧ stream st' = stream st) ∨
         (∃ n, parse field = .ok n ∧ r = .ok n ∧ stream st' = rest ∧
            (st'.buf.length ≤ st.buf.length ∨ ∃ ch ∈ st.src, st'.buf.length ≤ ch.length))))) := by
  unfold readHeader at h
  rcases hrw : readWhile (fun b => b.length < 5) st.src st.buf with ⟨r1, st1⟩
  obtain ⟨ha, hb, hc, hd⟩ := readWhile_spec _ _ _ _ _ hrw
  rw [hrw] at h
  have hbound : st1.buf.length ≤ st.buf.length ∨ ∃ ch ∈ st.src, st1.buf.length ≤ 4 + ch.length := by
    rcases hd with hd | ⟨b, ch, h1, h2, h3⟩
    · left; rw [hd]; exact Nat.le_refl _
    · right; refine ⟨ch, h2, ?_⟩
      have : b.length < 5 := by simpa using h1
      rw [h3, List.length_append]; omega
  rcases hc with ⟨rfl, hm⟩ | ⟨rfl, hm, hs⟩
  · have hlen : 5 ≤ st1.buf.length := by simpa using hm
    have hp := prefix5_iff hlen
    simp only at h
    by_cases hpre : prefix5 <+: st1.buf
    · obtain ⟨p1, p2, p3⟩ := hp.mp hpre
      simp only [p1, p2, p3, ne_eq, not_true_eq_false, if_false] at h
      rcases hfs : findSemi none st1.src st1.buf with ⟨r2, st2⟩
      obtain ⟨fa, fb, fc⟩ := findSemi_spec _ _ _ _ _ hfs
      rw [hfs] at h
      have hsuf := fb.trans hb
      have hstr : stream st2 = stream st := by unfold stream; rw [fa, ha]
      have hpre2 : prefix5 <+: st2.buf := by
        have e1 : prefix5 <+: st2.buf ++ st2.src.flatten := by
          rw [fa]; exact hpre.trans (List.prefix_append _ _)
        have hlen2 : st1.buf.length ≤ st2.buf.length := by
          rcases fb with ⟨t, ht⟩
          have := congrArg List.length fa
          have h3 : st1.src.flatten.length = t.flatten.length + st2.src.flatten.length := by
            rw [← ht, List.flatten_append, List.length_append]
          simp only [List.length_append] at this
          omega
        exact List.prefix_of_prefix_length_le e1 (List.prefix_append _ _)
          (by simp [prefix5]; omega)
      rcases fc with ⟨rfl, hsm, hw⟩ | ⟨rfl, hsm, hw⟩ | ⟨hbig, hw⟩
      · obtain ⟨tl5, htl5⟩ := hpre2
        have hmem : semi ∈ tl5 := by
          rw [← htl5] at hsm
          simpa [prefix5, semi] using hsm
        obtain ⟨field, rest, hf, htl, -⟩ := mem_dropWhile_head hmem
        have hbuf : st2.buf = prefix5 ++ field ++ semi :: rest := by rw [← htl5, htl]; simp
        have hnp : semi ∉ prefix5 ++ field := by simp [prefix5, semi]; exact hf
        have hfield : (st2.buf.drop 5).takeWhile (fun b => b != semi) = field := by
          rw [hbuf, List.append_assoc]
          exact takeWhile_head hf
        have hrest : (st2.buf.dropWhile (fun b => b != semi)).drop 1 = rest := by
          rw [hbuf, dropWhile_head hnp]; rfl
        simp only [hfield, hrest] at h
        have hS : stream st = prefix5 ++ field ++ semi :: (rest ++ st2.src.flatten) := by
          rw [← hstr]; unfold stream; rw [hbuf]; simp
        rcases hpf : parse field with e | n
        · simp only [hpf] at h; cases h
          exact ⟨hsuf, .inr (.inr (.inr ⟨field, _, hf, hS, .inl ⟨e, hpf, rfl, hstr⟩⟩))⟩
        · simp only [hpf] at h; cases h
          refine ⟨hsuf, .inr (.inr (.inr ⟨field, _, hf, hS, .inr ⟨n, hpf, rfl, rfl, ?_⟩⟩))⟩
          simp only
          rcases hw with hw | ⟨b, ch, hb1, hch, he⟩
          · have : st1.buf.length = 6 + field.length + rest.length := by
              rw [hw] at hbuf; simp only at hbuf; rw [hbuf]; simp [prefix5]; omega
            rcases hbound with hbd | ⟨ch, hch, hbd⟩
            · left; omega
            · exact .inr ⟨ch, hch, by omega⟩
          · right
            refine ⟨ch, (hb.subset hch), ?_⟩
            have e := he.symm.trans hbuf
            rcases List.append_eq_append_iff.mp e with ⟨as, h1, h2⟩ | ⟨bs, h1, h2⟩
            · rw [h2]; simp; omega
            · cases bs with
              | nil => simp at h2; rw [← h2]; simp
              | cons x bs =>
                simp only [List.cons_append, List.cons.injEq] at h2
                exfalso; apply hb1; rw [h1, ← h2.1]; simp
      · cases h
        refine ⟨hsuf, .inl ⟨rfl, hstr, hw, .inr ?_⟩⟩
        rw [← hstr]; unfold stream; rw [hw]; simpa using ⟨hsm, hpre2⟩
      · rcases hw with ⟨rfl, hw⟩ | ⟨rfl, b, ch, hb1, hch, he⟩
        · simp only at h; cases h
          refine ⟨hsuf, .inr (.inr (.inl ⟨hstr, hpre2, hbig, .inl ⟨rfl, ?_⟩⟩))⟩
          rw [hw]; exact hbound
        · simp only at h; cases h
          exact ⟨hsuf, .inr (.inr (.inl ⟨hstr, hpre2, hbig, .inr ⟨rfl, b, ch, hb1, hb.subset hch, he⟩⟩))⟩
    · have : (Except.error Stop.parse, st1) = (r, st') := by
        by_cases q1 : st1.buf.take 1 = [sync]
        · by_cases q2 : (st1.buf.drop 1).take 3 = magic
          · have q3 : (st1.buf.drop 4).take 1 ≠ [ell] := fun q3 => hpre (hp.mpr ⟨q1, q2, q3⟩)
            rw [if_neg (by simp [q1]), if_neg (not_not_intro q2), if_pos q3] at h; exact h
          · rw [if_neg (by simp [q1]), if_pos q2] at h; exact h
        · rw [if_pos q1] at h; exact h
      cases this
      exact ⟨hb, .inr (.inl ⟨rfl, ha, hlen, hpre, hbound⟩)⟩
  · cases h
    refine ⟨hb, .inl ⟨rfl, ha, hs, .inl ?_⟩⟩
    have hm : st'.buf.length < 5 := by simpa using hm
    unfold stream; rw [← ha, hs]; simpa using hm

/-- Everything that `read_body` may do. -/
theorem readBody_spec (n : Int) (st : St) (r st') (h : readBody n st = (r, st')) :
    st'.src <:+ st.src ∧
    ((r = .error .eof ∧ stream st' = stream st ∧ st'.src = [] ∧ ((stream st).length : Int) < n) ∨
     (∃ body, r = .ok body ∧ stream st = body ++ stream st' ∧ (0 ≤ n → (body.length : Int) = n) ∧
        (st'.buf.length ≤ st.buf.length ∨ ∃ ch ∈ st.src, st'.buf.length ≤ ch.length))) := by
  unfold readBody at h
  rcases hrw : readWhile (fun b => (b.length : Int) < n) st.src st.buf with ⟨r1, st1⟩
  obtain ⟨ha, hb, hc, hd⟩ := readWhile_spec _ _ _ _ _ hrw
  rw [hrw] at h
  rcases hc with ⟨rfl, hm⟩ | ⟨rfl, hm, hs⟩
  · have hm : n ≤ st1.buf.length := by simpa using hm
    simp only at h
    cases h
    refine ⟨hb, .inr ⟨_, rfl, ?_, ?_, ?_⟩⟩
    · unfold stream; simp only; rw [← ha, ← List.append_assoc, List.take_append_drop]
    · intro hn
      rw [if_neg (by omega), List.length_take]
      omega
    · simp only [List.length_drop]
      rcases hd with hd | ⟨b, ch, h1, h2, h3⟩
      · left; rw [hd]; simp only; omega
      · right
        refine ⟨ch, h2, ?_⟩
        have h1 : (b.length : Int) < n := by simpa using h1
        rw [if_neg (by omega), h3, List.length_append]
        omega
  · cases h
    refine ⟨hb, .inl ⟨rfl, ha, hs, ?_⟩⟩
    have hm : (st'.buf.length : Int) < n := by simpa using hm
    unfold stream; rw [← ha, hs]; simpa using hm

/-! ## digits -/

theorem digitsAux_fuel (n : Nat) : ∀ f g, n < f → n < g → digitsAux f n = digitsAux g n := by
  induction n using Nat.strongRecOn with
  | ind n ih =>
    intro f g hf hg
    obtain ⟨f, rfl⟩ : ∃ k, f = k + 1 := ⟨f - 1, by omega⟩
    obtain ⟨g, rfl⟩ : ∃ k, g = k + 1 := ⟨g - 1, by omega⟩
    unfold digitsAux
    split
    · rfl
    · rw [ih (n / 10) (by omega) f g (by omega) (by omega)]

theorem digits_eq (n : Nat) : digits n =
    if n < 10 then [UInt8.ofNat (48 + n)] else digits (n / 10) ++ [UInt8.ofNat (48 + n % 10)] := by
  conv => lhs; unfold digits digitsAux
  split
  · rfl
  · unfold digits
    rw [digitsAux_fuel (n / 10) n (n / 10 + 1) (by omega) (by omega)]

theorem digits_range (n : Nat) : ∀ b ∈ digits n, 48 ≤ b.toNat ∧ b.toNat ≤ 57 := by
  induction n using Nat.strongRecOn with
  | ind n ih =>
    intro b hb
    rw [digits_eq] at hb
    split at hb
    · simp only [List.mem_singleton] at hb; subst hb
      rw [UInt8.toNat_ofNat']; omega
    · rw [List.mem_append] at hb
      rcases hb with hb | hb
      · exact ih (n / 10) (by omega) b hb
      · simp only [List.mem_singleton] at hb; subst hb
        rw [UInt8.toNat_ofNat']; omega

theorem digits_value (n : Nat) : (digits n).foldl (fun acc b => acc * 10 + (b.toNat - 48 : Nat)) 0 = n := by
  induction n using Nat.strongRecOn with
  | ind n ih =>
    rw [digits_eq]
    split
    · simp [UInt8.toNat_ofNat']; omega
    · rw [List.foldl_append, ih (n / 10) (by omega)]
      simp only [List.foldl_cons, List.foldl_nil, UInt8.toNat_ofNat']
      omega

theorem digits_ne_nil (n : Nat) : digits n ≠ [] := by
  rw [digits_eq]; split <;> simp

theorem semi_not_digits (n : Nat) : semi ∉ digits n := by
  intro h
  have := digits_range n _ h
  simp [semi] at this

theorem decimal_digits (n : Nat) : decimal (digits n) = .ok (n : Int) := by
  unfold decimal
  rw [if_neg, digits_value]
  intro h
  rcases h with h | h
  · exact digits_ne_nil n (List.isEmpty_iff.mp h)
  · obtain ⟨b, hb, h⟩ := List.any_eq_true.mp h
    have := digits_range n b hb
    simp only [Bool.or_eq_true, decide_eq_true_eq, UInt8.lt_iff_toNat_lt] at h
    rcases h with h | h
    · have : (48 : UInt8).toNat = 48 := rfl
      omega
    · have : (57 : UInt8).toNat = 57 := rfl
      omega

theorem digits_inj {m n : Nat} (h : digits m = digits n) : m = n := by
  rw [← digits_value m, h, digits_value]

/-! ## decoding -/

/-- A pass through the loop, whatever the stream. -/
theorem attempt_spec (parse : Bytes → Except PyErr Int) (st : St) (r st') (h : attempt parse st = (r, st')) :
    stream st' <:+ stream st ∧ st'.src <:+ st.src ∧
    ((r = .error .parse ∧ st'.buf ≠ []) ∨ (r = .error .eof ∧ st'.src = []) ∨
     (∃ e, r = .error (.err e) ∧ (e = .UnboundLocalError ∨ ∃ field, parse field = .error e)) ∨
     (∃ body junk field n, r = .ok body ∧ parse field = .ok n ∧
        stream st = junk ++ (prefix5 ++ field ++ semi :: (body ++ stream st')))) := by
  unfold attempt at h
  rcases hs : synchronize st.src st.buf with ⟨r1, st1⟩
  rw [hs] at h
  rcases synchronize_spec _ _ _ _ hs with ⟨rfl, hs1, ⟨junk, tl, hj, htl, hst⟩, -⟩ | ⟨rfl, rfl, -⟩
  · simp only at h
    have hsuf : stream st1 <:+ stream st := ⟨junk, hst.symm⟩
    rcases hh : readHeader parse st1 with ⟨r2, st2⟩
    rw [hh] at h
    obtain ⟨hs2, hc⟩ := readHeader_spec _ _ _ _ hh
    rcases hc with ⟨rfl, h1, h2, -⟩ | ⟨rfl, h1, h2, -, -⟩ | ⟨h1, hp, hl, h3⟩ | ⟨field, rest, hf, hS, h3⟩
    · cases h
      exact ⟨h1 ▸ hsuf, hs2.trans hs1, .inr (.inl ⟨rfl, h2⟩)⟩
    · cases h
      refine ⟨h1 ▸ hsuf, hs2.trans hs1, .inl ⟨rfl, ?_⟩⟩
      intro h0; rw [h0] at h2; simp at h2
    · rcases h3 with ⟨rfl, -⟩ | ⟨rfl, -⟩
      · cases h
        exact ⟨h1 ▸ hsuf, hs2.trans hs1, .inr (.inr (.inl ⟨_, rfl, .inl rfl⟩))⟩
      · cases h
        refine ⟨h1 ▸ hsuf, hs2.trans hs1, .inl ⟨rfl, ?_⟩⟩
        intro h0; rw [h0] at hl; simp at hl
    · rcases h3 with ⟨e, hpe, rfl, h1⟩ | ⟨n, hpn, rfl, h1, -⟩
      · cases h
        exact ⟨h1 ▸ hsuf, hs2.trans hs1, .inr (.inr (.inl ⟨_, rfl, .inr ⟨_, hpe⟩⟩))⟩
      · simp only at h
        obtain ⟨hs3, hb⟩ := readBody_spec _ _ _ _ h
        have hsuf2 : stream st2 <:+ stream st := by
          refine List.IsSuffix.trans ?_ hsuf
          rw [h1, hS]
          exact ⟨prefix5 ++ field ++ [semi], by simp⟩
        rcases hb with ⟨rfl, h4, h5, -⟩ | ⟨body, rfl, h4, -, -⟩
        · exact ⟨h4 ▸ hsuf2, hs3.trans (hs2.trans hs1), .inr (.inl ⟨rfl, h5⟩)⟩
        · refine ⟨List.IsSuffix.trans ⟨body, h4.symm⟩ hsuf2, hs3.trans (hs2.trans hs1),
            .inr (.inr (.inr ⟨body, junk, field, n, rfl, hpn, ?_⟩))⟩
          rw [← h4, h1, ← hS]; exact hst
  · cases h
    exact ⟨by simp [stream], by simp, .inr (.inl ⟨rfl, rfl⟩)⟩

theorem stream_drop1 {st : St} (h : st.buf ≠ []) : ∃ b, stream st = b :: stream ⟨st.buf.drop 1, st.src⟩ := by
  rcases st with ⟨_ | ⟨b, buf⟩, src⟩
  · exact absurd rfl h
  · exact ⟨b, by simp [stream]⟩

theorem decodeLoop_spec (parse : Bytes → Except PyErr Int) : ∀ (fuel : Nat) (st : St), (stream st).length < fuel →
    ∃ r st', decodeLoop parse fuel st = some (r, st') ∧ stream st' <:+ stream st ∧ st'.src <:+ st.src ∧
    ((r = .ok none ∧ st'.src = []) ∨
     (∃ e, r = .error e ∧ (e = .UnboundLocalError ∨ ∃ field, parse field = .error e)) ∨
     (∃ body junk field n, r = .ok (some body) ∧ parse field = .ok n ∧
        stream st = junk ++ (prefix5 ++ field ++ semi :: (body ++ stream st')))) := by
  intro fuel
  induction fuel with
  | zero => intro st h; omega
  | succ fuel ih =>
    intro st hlt
    rcases ha : attempt parse st with ⟨r, st1⟩
    obtain ⟨h1, h2, h3⟩ := attempt_spec _ _ _ _ ha
    rcases h3 with ⟨rfl, hne⟩ | ⟨rfl, hs⟩ | ⟨e, rfl, he⟩ | ⟨body, junk, field, n, rfl, hpn, hst⟩
    · obtain ⟨b, hb⟩ := stream_drop1 hne
      have hle := h1.length_le
      have hl : (stream ⟨st1.buf.drop 1, st1.src⟩).length < fuel := by
        rw [hb, List.length_cons] at hle; omega
      obtain ⟨r, st', e1, e2, e3, e4⟩ := ih _ hl
      have hsuf : stream ⟨st1.buf.drop 1, st1.src⟩ <:+ stream st :=
        List.IsSuffix.trans ⟨[b], by rw [hb]; rfl⟩ h1
      refine ⟨r, st', by rw [decodeLoop, ha]; exact e1, e2.trans hsuf, e3.trans h2, ?_⟩
      rcases e4 with e4 | e4 | ⟨body, junk, field, n, rfl, hpn, hst⟩
      · exact .inl e4
      · exact .inr (.inl e4)
      · obtain ⟨t, ht⟩ := hsuf
        exact .inr (.inr ⟨body, t ++ junk, field, n, rfl, hpn, by rw [← ht, hst]; simp⟩)
    · exact ⟨_, _, by rw [decodeLoop, ha], h1, h2, .inl ⟨rfl, hs⟩⟩
    · exact ⟨_, _, by rw [decodeLoop, ha], h1, h2, .inr (.inl ⟨e, rfl, he⟩)⟩
    · exact ⟨_, _, by rw [decodeLoop, ha], h1, h2, .inr (.inr ⟨body, junk, field, n, rfl, hpn, hst⟩)⟩

theorem decodemsg_eq (parse : Bytes → Except PyErr Int) (st : St) :
    decodemsg parse st = decodeLoop parse ((stream st).length + 1) st := by
  unfold decodemsg stream; rw [List.length_append]

/-- More fuel does not matter. -/
theorem decodeLoop_fuel (parse : Bytes → Except PyErr Int) : ∀ (f g : Nat) (st : St),
    (stream st).length < f → (stream st).length < g → decodeLoop parse f st = decodeLoop parse g st := by
  intro f
  induction f with
  | zero => intro g st h; omega
  | succ f ih =>
    intro g st hf hg
    obtain ⟨g, rfl⟩ : ∃ k, g = k + 1 := ⟨g - 1, by omega⟩
    rw [decodeLoop, decodeLoop]
    rcases ha : attempt parse st with ⟨r, st1⟩
    obtain ⟨h1, h2, h3⟩ := attempt_spec _ _ _ _ ha
    rcases h3 with ⟨rfl, hne⟩ | ⟨rfl, hs⟩ | ⟨e, rfl, he⟩ | ⟨body, junk, field, n, rfl, hpn, hst⟩
    · obtain ⟨b, hb⟩ := stream_drop1 hne
      have hle := h1.length_le
      rw [hb, List.length_cons] at hle
      exact ih _ _ (by omega) (by omega)
    · rfl
    · rfl
    · rfl

theorem decodemsg_step {parse : Bytes → Except PyErr Int} {st st1 : St} (ha : attempt parse st = (.error .parse, st1)) :
    decodemsg parse st = decodemsg parse ⟨st1.buf.drop 1, st1.src⟩ := by
  obtain ⟨h1, h2, h3⟩ := attempt_spec _ _ _ _ ha
  rcases h3 with ⟨-, hne⟩ | ⟨h, -⟩ | ⟨e, h, -⟩ | ⟨_, _, _, _, h, -⟩
  · rw [decodemsg_eq, decodeLoop, ha, decodemsg_eq]
    obtain ⟨b, hb⟩ := stream_drop1 hne
    have hle := h1.length_le
    rw [hb, List.length_cons] at hle
    exact decodeLoop_fuel _ _ _ _ (by omega) (by omega)
  all_goals cases h

/-- What holds of the buffer and of the chunks, if chunks have at most `c` bytes. -/
def Small (c : Nat) (st : St) : Prop := st.buf.length ≤ c + 4 ∧ ∀ ch ∈ st.src, ch.length ≤ c

theorem Small.of_bound {c k : Nat} {st st' : St} (h : Small c st) (hk : k ≤ 4) (hs : st'.src <:+ st.src)
    (hb : st'.buf.length ≤ st.buf.length ∨ ∃ ch ∈ st.src, st'.buf.length ≤ k + ch.length) : Small c st' := by
  refine ⟨?_, fun ch hc => h.2 ch (hs.subset hc)⟩
  rcases hb with hb | ⟨ch, hc, hb⟩
  · exact Nat.le_trans hb h.1
  · have := h.2 ch hc; omega

/-- Reading a header, when the chunks are small and what follows the start of a header is well formed. -/
theorem readHeader_small {parse : Bytes → Except PyErr Int} {c d : Nat} (hcd : 6 + d + c ≤ 4096) {st : St}
    (hsm : Small c st)
    (hgood : ∀ post, stream st = prefix5 ++ post →
      (∃ field rest n, post = field ++ semi :: rest ∧ semi ∉ field ∧ field.length ≤ d ∧ parse field = .ok n) ∨
      (semi ∉ post ∧ post.length ≤ d)) {r st'} (h : readHeader parse st = (r, st')) :
    st'.src <:+ st.src ∧
    ((r = .error .eof ∧ stream st' = stream st ∧ st'.src = [] ∧
        ((stream st).length < 5 ∨ (semi ∉ stream st ∧ prefix5 <+: stream st))) ∨
     (r = .error .parse ∧ Small c st' ∧ stream st' = stream st ∧ st'.buf ≠ [] ∧ ¬ prefix5 <+: stream st) ∨
     (∃ field rest n, semi ∉ field ∧ stream st = prefix5 ++ field ++ semi :: rest ∧ parse field = .ok n ∧
        r = .ok n ∧ Small c st' ∧ stream st' = rest)) := by
  obtain ⟨hs2, hc⟩ := readHeader_spec _ _ _ _ h
  refine ⟨hs2, ?_⟩
  rcases hc with ⟨rfl, h1, h2, h2'⟩ | ⟨rfl, h1, h2, hnp, hb⟩ | ⟨h1, hp, hl, h3⟩ | ⟨field, rest, hf, hS, h3⟩
  · exact .inl ⟨rfl, h1, h2, h2'⟩
  · refine .inr (.inl ⟨rfl, hsm.of_bound (Nat.le_refl 4) hs2 hb, h1, ?_, ?_⟩)
    · intro h0; rw [h0] at h2; simp at h2
    · intro hp; apply hnp
      rw [← h1] at hp
      exact List.prefix_of_prefix_length_le hp (List.prefix_append _ _) (by simpa [prefix5] using h2)
  · exfalso
    rcases h3 with ⟨-, hb⟩ | ⟨-, b, ch, hb, hch, he⟩
    · rcases hb with hb | ⟨ch, hch, hb⟩
      · have := hsm.1; omega
      · have := hsm.2 ch hch; omega
    · have hpS : prefix5 <+: stream st := by
        rw [← h1]; exact hp.trans (List.prefix_append _ _)
      obtain ⟨post, hpost⟩ := hpS
      have hbS : b <+: stream st := by
        rw [← h1]; unfold stream; rw [he, List.append_assoc]; exact List.prefix_append _ _
      have hlen : b.length ≤ 5 + d := by
        rcases hgood post hpost.symm with ⟨field, rest, n, rfl, hf, hd, hpn⟩ | ⟨hno, hd⟩
        · have hx : b <+: prefix5 ++ field := by
            have e : stream st = (prefix5 ++ field) ++ semi :: rest := by rw [← hpost]; simp
            rw [e] at hbS
            obtain ⟨t, ht⟩ := hbS
            rcases List.append_eq_append_iff.mp ht with ⟨as, h1, h2⟩ | ⟨bs, h1, h2⟩
            · exact ⟨as, h1.symm⟩
            · cases bs with
              | nil => simp at h1; rw [h1]; exact List.prefix_rfl
              | cons x bs =>
                simp only [List.cons_append, List.cons.injEq] at h2
                exfalso; apply hb; rw [h1, ← h2.1]; simp
          have := hx.length_le
          simp [prefix5] at this; omega
        · have := hbS.length_le
          rw [← hpost] at this
          simp [prefix5] at this; omega
      have := hsm.2 ch hch
      rw [he, List.length_append] at hl
      omega
  · rcases h3 with ⟨e, hpe, rfl, h1⟩ | ⟨n, hpn, rfl, h1, hb⟩
    · exfalso
      rcases hgood (field ++ semi :: rest) (by rw [hS]; simp) with ⟨field', rest', n, e1, hf', hd, hpn⟩ | ⟨hno, -⟩
      · have : field = field' := by
          rw [← takeWhile_head (tl := rest) hf, e1, takeWhile_head hf']
        subst this
        rw [hpe] at hpn; cases hpn
      · apply hno; simp
    · exact .inr (.inr ⟨field, rest, n, hf, hS, hpn, rfl, hsm.of_bound (k := 0) (by omega) hs2 (by simpa using hb), h1⟩)

theorem synchronize_small {c : Nat} {st : St} (hsm : Small c st) {r st'} (h : synchronize st.src st.buf = (r, st')) :
    (r = .ok () ∧ Small c st' ∧ ∃ junk tl, sync ∉ junk ∧ stream st' = sync :: tl ∧ stream st = junk ++ stream st') ∨
    (r = .error .eof ∧ st' = ⟨[], []⟩ ∧ sync ∉ stream st) := by
  rcases synchronize_spec _ _ _ _ h with ⟨rfl, hs1, ⟨junk, tl, hj, htl, hst⟩, hb⟩ | h
  · refine .inl ⟨rfl, hsm.of_bound (k := 0) (by omega) hs1 (by simpa using hb), junk, tl ++ st'.src.flatten, hj, ?_, hst⟩
    unfold stream; rw [htl]; rfl
  · exact .inr h

theorem GoodHeaders_suffix {parse : Bytes → Except PyErr Int} {d : Nat} {s t : Bytes} (h : GoodHeaders parse d s)
    (hs : t <:+ s) : GoodHeaders parse d t := by
  obtain ⟨u, rfl⟩ := hs
  intro pre post he
  exact h (u ++ pre) post (by rw [he]; simp)

theorem Small.drop1 {c : Nat} {st : St} (h : Small c st) : Small c ⟨st.buf.drop 1, st.src⟩ :=
  ⟨by simp only [List.length_drop]; have := h.1; omega, h.2⟩

theorem decode_good {parse : Bytes → Except PyErr Int} {c d : Nat} (hcd : 6 + d + c ≤ 4096) : ∀ (k : Nat) (st : St),
    (stream st).length ≤ k → Small c st → GoodHeaders parse d (stream st) →
    ∃ r st', decodemsg parse st = some (.ok r, st') ∧ (r = none ∨
      (∃ b, r = some b ∧ Small c st' ∧ stream st' <:+ stream st ∧ (stream st').length < (stream st).length)) := by
  intro k
  induction k with
  | zero =>
    intro st hk hsm hg
    rcases hs : synchronize st.src st.buf with ⟨r1, st1⟩
    rcases synchronize_small hsm hs with ⟨-, -, junk, tl, -, h1, h2⟩ | ⟨rfl, rfl, -⟩
    · rw [h2, h1] at hk; simp at hk
    · refine ⟨none, ⟨[], []⟩, ?_, .inl rfl⟩
      rw [decodemsg_eq, decodeLoop, attempt, hs]
  | succ k ih =>
    intro st hk hsm hg
    rcases hs : synchronize st.src st.buf with ⟨r1, st1⟩
    rcases synchronize_small hsm hs with ⟨rfl, hsm1, junk, tl, hj, h1, h2⟩ | ⟨rfl, rfl, -⟩
    · have hsuf1 : stream st1 <:+ stream st := ⟨junk, h2.symm⟩
      have hle1 := hsuf1.length_le
      rcases hh : readHeader parse st1 with ⟨r2, st2⟩
      have hg1 := GoodHeaders_suffix hg hsuf1
      obtain ⟨hs2, hc⟩ := readHeader_small hcd hsm1 (fun post hp => hg1 [] post (by simpa using hp)) hh
      rcases hc with ⟨rfl, h3, h4, -⟩ | ⟨rfl, hsm2, h3, h4, -⟩ | ⟨field, rest, n, hf, hS, hpn, rfl, hsm2, h3⟩
      · refine ⟨none, st2, ?_, .inl rfl⟩
        rw [decodemsg_eq, decodeLoop, attempt, hs]; simp only [hh]
      · have hat : attempt parse st = (.error .parse, st2) := by rw [attempt, hs]; simp only [hh]
        obtain ⟨b, hb⟩ := stream_drop1 h4
        have hsuf2 : stream ⟨st2.buf.drop 1, st2.src⟩ <:+ stream st :=
          List.IsSuffix.trans ⟨[b], by rw [← h3, hb]; rfl⟩ hsuf1
        have hlen : (stream ⟨st2.buf.drop 1, st2.src⟩).length + 1 = (stream st1).length := by
          rw [← h3, hb]; simp
        obtain ⟨r, st', e1, e2⟩ := ih _ (by omega) hsm2.drop1 (GoodHeaders_suffix hg hsuf2)
        refine ⟨r, st', by rw [decodemsg_step hat]; exact e1, ?_⟩
        rcases e2 with e2 | ⟨b, rfl, e3, e4, e5⟩
        · exact .inl e2
        · exact .inr ⟨b, rfl, e3, e4.trans hsuf2, by omega⟩
      · rcases hb : readBody n st2 with ⟨r3, st3⟩
        obtain ⟨hs3, hb3⟩ := readBody_spec _ _ _ _ hb
        have hat : attempt parse st = (r3, st3) := by rw [attempt, hs]; simp only [hh]; exact hb
        have hlen : (stream st2).length < (stream st1).length := by
          rw [h3, hS]; simp; omega
        rcases hb3 with ⟨rfl, h4, h5, -⟩ | ⟨body, rfl, h4, -, hbd⟩
        · refine ⟨none, st3, ?_, .inl rfl⟩
          rw [decodemsg_eq, decodeLoop, hat]
        · refine ⟨some body, st3, by rw [decodemsg_eq, decodeLoop, hat], .inr ⟨body, rfl,
            hsm2.of_bound (k := 0) (by omega) hs3 (by simpa using hbd), ?_, ?_⟩⟩
          · refine List.IsSuffix.trans ⟨body, h4.symm⟩ (List.IsSuffix.trans ?_ hsuf1)
            rw [h3, hS]; exact ⟨prefix5 ++ field ++ [semi], by simp⟩
          · have := congrArg List.length h4
            rw [List.length_append] at this; omega
    · refine ⟨none, ⟨[], []⟩, ?_, .inl rfl⟩
      rw [decodemsg_eq, decodeLoop, attempt, hs]

theorem receives_good {parse : Bytes → Except PyErr Int} {c d : Nat} (hcd : 6 + d + c ≤ 4096) : ∀ (k : Nat) (st : St),
    (stream st).length ≤ k → Small c st → GoodHeaders parse d (stream st) → ∃ bs, Receives parse st bs := by
  intro k
  induction k with
  | zero =>
    intro st hk hsm hg
    obtain ⟨r, st', h1, h2⟩ := decode_good hcd _ _ hk hsm hg
    rcases h2 with rfl | ⟨b, -, -, -, h⟩
    · exact ⟨[], .done h1⟩
    · omega
  | succ k ih =>
    intro st hk hsm hg
    obtain ⟨r, st', h1, h2⟩ := decode_good hcd _ _ hk hsm hg
    rcases h2 with rfl | ⟨b, rfl, h3, h4, h5⟩
    · exact ⟨[], .done h1⟩
    · obtain ⟨bs, hbs⟩ := ih st' (by omega) h3 (GoodHeaders_suffix hg h4)
      exact ⟨b :: bs, .next h1 hbs⟩

theorem prefix5_no_overlap {bs x : Bytes} (hne : bs ≠ []) (h : prefix5 <+: bs ++ (prefix5 ++ x)) : prefix5 <+: bs := by
  match bs, hne with
  | [a], _ => simp [prefix5] at h
  | [a, b], _ => simp [prefix5] at h
  | [a, b, c], _ => simp [prefix5] at h
  | [a, b, c, d], _ => simp [prefix5] at h
  | a :: b :: c :: d :: e :: l, _ =>
    exact List.prefix_of_prefix_length_le h (List.prefix_append _ _) (by simp [prefix5])

theorem encodemsg_eq (data : Bytes) : encodemsg data = prefix5 ++ digits data.length ++ semi :: data := by
  simp [encodemsg, prefix5, sync, magic, ell]

/-- A message is decoded, and junk before it skipped. -/
theorem decode_message {parse : Bytes → Except PyErr Int} (hp : ReadsDecimal parse) {c : Nat} {body : Bytes}
    (hcd : 6 + (digits body.length).length + c ≤ 4096) (rest : Bytes) : ∀ (k : Nat) (st : St) (junk : Bytes),
    junk.length ≤ k → Small c st → ¬ prefix5 <:+: junk → stream st = junk ++ (encodemsg body ++ rest) →
    ∃ st', decodemsg parse st = some (.ok (some body), st') ∧ Small c st' ∧ stream st' = rest := by
  have hE : encodemsg body ++ rest = prefix5 ++ (digits body.length ++ semi :: (body ++ rest)) := by
    rw [encodemsg_eq]; simp
  have hEs : ∃ tl, encodemsg body ++ rest = sync :: tl := ⟨_, by rw [hE]; rfl⟩
  have hsemi := semi_not_digits body.length
  intro k
  induction k with
  | zero | succ k ih =>
    intro st junk hk hsm hj hst
    rcases hs : synchronize st.src st.buf with ⟨r1, st1⟩
    rcases synchronize_small hsm hs with ⟨rfl, hsm1, j, tl, hj1, h1, h2⟩ | ⟨rfl, rfl, hno⟩
    · -- the stream left after the first sync byte
      have hcase : stream st1 = encodemsg body ++ rest ∨
          ∃ j' bs, junk = j' ++ bs ∧ bs ≠ [] ∧ stream st1 = bs ++ (encodemsg body ++ rest) := by
        rw [hst] at h2
        rcases List.append_eq_append_iff.mp h2 with ⟨as, e1, e2⟩ | ⟨bs, e1, e2⟩
        · cases as with
          | nil => exact .inl (by simpa using e2.symm)
          | cons x as =>
            exfalso
            obtain ⟨tl', ht⟩ := hEs
            rw [ht] at e2
            simp only [List.cons_append, List.cons.injEq] at e2
            apply hj1; rw [e1, ← e2.1]; simp
        · cases bs with
          | nil => exact .inl (by simpa using e2)
          | cons x bs => exact .inr ⟨_, _, e1, by simp, e2⟩
      rcases hh : readHeader parse st1 with ⟨r2, st2⟩
      have hnp : ∀ j' bs, junk = j' ++ bs → bs ≠ [] → stream st1 = bs ++ (encodemsg body ++ rest) →
          ¬ prefix5 <+: stream st1 := by
        intro j' bs e1 e2 e3 hpre
        rw [e3, hE] at hpre
        obtain ⟨t, ht⟩ := prefix5_no_overlap e2 hpre
        exact hj ⟨j', t, by rw [e1, ← ht]; simp⟩
      obtain ⟨hs2, hc⟩ := readHeader_small (d := (digits body.length).length) hcd hsm1 (fun post hpo => by
        rcases hcase with h | ⟨j', bs, e1, e2, e3⟩
        · rw [h, hE] at hpo
          exact .inl ⟨_, _, _, (List.append_cancel_left hpo).symm, hsemi, Nat.le_refl _, hp _⟩
        · exact absurd ⟨post, hpo.symm⟩ (hnp _ _ e1 e2 e3)) hh
      have hmemS : semi ∈ stream st1 := by
        rcases hcase with h | ⟨j', bs, e1, e2, e3⟩
        · rw [h, hE]; simp
        · rw [e3, hE]; simp
      rcases hc with ⟨rfl, h3, h4, h5⟩ | ⟨rfl, hsm2, h3, h4, hnpre⟩ | ⟨field, rest', n, hf, hS, hpn, rfl, hsm2, h3⟩
      · exfalso
        rcases h5 with h5 | ⟨h5, -⟩
        · rcases hcase with h | ⟨j', bs, e1, e2, e3⟩
          · rw [h, hE] at h5; simp [prefix5] at h5; omega
          · rw [e3, hE] at h5; simp [prefix5] at h5; omega
        · exact h5 hmemS
      · have hat : attempt parse st = (.error .parse, st2) := by rw [attempt, hs]; simp only [hh]
        obtain ⟨b, hb⟩ := stream_drop1 h4
        rcases hcase with h | ⟨j', bs, e1, e2, e3⟩
        · exact absurd ⟨_, by rw [h, hE]⟩ hnpre
        · first
          | (exfalso
             have := congrArg List.length e1
             rw [List.length_append] at this
             cases bs with
             | nil => exact e2 rfl
             | cons => simp at this; omega)
          | (cases bs with
             | nil => exact absurd rfl e2
             | cons x bs =>
               obtain ⟨st', r1, r2, r3⟩ := ih ⟨st2.buf.drop 1, st2.src⟩ bs (by rw [e1] at hk; simp at hk; omega) hsm2.drop1
                 (fun ⟨u, v, huv⟩ => hj ⟨j' ++ x :: u, v, by rw [e1, ← huv]; simp⟩)
                 (by rw [← h3, hb, List.cons_append] at e3; exact (List.cons.inj e3).2)
               exact ⟨st', by rw [decodemsg_step hat]; exact r1, r2, r3⟩)
      · have hpre : prefix5 <+: stream st1 := ⟨field ++ semi :: rest', by rw [hS]; simp⟩
        rcases hcase with h | ⟨j', bs, e1, e2, e3⟩
        · have e : field ++ semi :: rest' = digits body.length ++ semi :: (body ++ rest) := by
            rw [h, hE] at hS
            rw [List.append_assoc] at hS
            exact (List.append_cancel_left hS).symm
          have ef : field = digits body.length := by
            rw [← takeWhile_head (tl := rest') hf, e, takeWhile_head hsemi]
          subst ef
          have er : rest' = body ++ rest := by simpa using List.append_cancel_left e
          rw [hp] at hpn; cases hpn
          rcases hb : readBody body.length st2 with ⟨r3, st3⟩
          obtain ⟨hs3, hb3⟩ := readBody_spec _ _ _ _ hb
          have hat : attempt parse st = (r3, st3) := by rw [attempt, hs]; simp only [hh]; exact hb
          rcases hb3 with ⟨rfl, h4, h5, h6⟩ | ⟨body', rfl, h4, h6, hbd⟩
          · rw [h3, er] at h6; simp at h6; omega
          · have h6 := h6 (by omega)
            rw [h3, er] at h4
            have := List.append_inj h4 (by omega)
            refine ⟨st3, ?_, hsm2.of_bound (k := 0) (by omega) hs3 (by simpa using hbd), this.2.symm⟩
            rw [decodemsg_eq, decodeLoop, hat, this.1]
        · exact absurd hpre (hnp _ _ e1 e2 e3)
    · exfalso
      apply hno
      obtain ⟨tl', ht⟩ := hEs
      rw [hst, ht]; simp

/-- Junk alone gives `None`. -/
theorem decode_junk {parse : Bytes → Except PyErr Int} : ∀ (k : Nat) (st : St), (stream st).length ≤ k →
    ¬ prefix5 <:+: stream st → ∃ st', decodemsg parse st = some (.ok none, st') := by
  intro k
  induction k with
  | zero | succ k ih =>
    intro st hk hj
    rcases hs : synchronize st.src st.buf with ⟨r1, st1⟩
    rcases synchronize_spec _ _ _ _ hs with ⟨rfl, hs1, ⟨j, tl, hj1, h1, h2⟩, -⟩ | ⟨rfl, rfl, hno⟩
    · have h2 : stream st = j ++ stream st1 := h2
      rcases hh : readHeader parse st1 with ⟨r2, st2⟩
      have hnp : ¬ prefix5 <:+: stream st1 := fun ⟨u, v, huv⟩ => hj ⟨j ++ u, v, by rw [h2, ← huv]; simp⟩
      obtain ⟨hs2, hc⟩ := readHeader_spec _ _ _ _ hh
      rcases hc with ⟨rfl, h3, h4, -⟩ | ⟨rfl, h3, h4, -, -⟩ | ⟨h3, hp, -, -⟩ | ⟨field, rest, hf, hS, -⟩
      · refine ⟨st2, ?_⟩
        rw [decodemsg_eq, decodeLoop, attempt, hs]; simp only [hh]
      · have hat : attempt parse st = (.error .parse, st2) := by rw [attempt, hs]; simp only [hh]
        obtain ⟨b, hb⟩ := stream_drop1 (st := st2) (fun h0 => by rw [h0] at h4; simp at h4)
        have hlen : (stream st).length = j.length + ((stream ⟨st2.buf.drop 1, st2.src⟩).length + 1) := by
          rw [h2, ← h3, hb]; simp
        first
        | omega
        | (obtain ⟨st', h⟩ := ih ⟨st2.buf.drop 1, st2.src⟩ (by omega)
             (fun ⟨u, v, huv⟩ => hnp ⟨b :: u, v, by rw [← h3, hb, ← huv]; simp⟩)
           exact ⟨st', by rw [decodemsg_step hat]; exact h⟩)
      · exact absurd (h3 ▸ (hp.trans (List.prefix_append _ _)).isInfix) hnp
      · exact absurd ⟨[], field ++ semi :: rest, by rw [hS]; simp⟩ hnp
    · refine ⟨⟨[], []⟩, ?_⟩
      rw [decodemsg_eq, decodeLoop, attempt, hs]

end Unpy.Net

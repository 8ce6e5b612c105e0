import Verif.Proof.Prefix
/-!
# C92: the block macro `prefix`
-/
namespace Unpy.Props
open Unpy.Prefix Unpy.Prefix.Spec
variable {β D : Type}

/-- C92.  In a `with prefix` block, tuples are calls unless quoted: the expanded expression means in Python what the
expression means by the rules of the block (`den`), and the macro raises an exception exactly if it has no meaning.  For
every meaning of Python's syntax that is built up from parts.  Partial: no empty tuple (`C92_empty_tuple_refuted`), and no
`**d` in a `kw(...)` (`C92_double_star_refuted`). -/
theorem C92_meaning_partial (A : Meaning β D) (d n : Nat) (e : PE β) (hd : depth e ≤ d) (ho : ok e = true) :
    (expand d n e).map (interp A) = den A e n := Pf.expand_den A d n e hd ho

mutual
private theorem plain_expand : ∀ (e : PE β) (d n : Nat), depth e ≤ d → noTuple e = true → expand d n e = some e
  | e, 0, n, h, _ => by cases e <;> simp [depth] at h
  | .cst _, d + 1, _, _, _ => rfl
  | .name _, d + 1, _, _, _ => rfl
  | .tup _, d + 1, _, _, h => by simp [noTuple] at h
  | .call f args names vals, d + 1, n, hd, h => by
    simp only [depth] at hd
    simp only [noTuple, Bool.and_eq_true] at h
    simp only [expand, plain_expand f d n (by omega) h.1.1, plain_expands args d n (by omega) h.1.2,
      plain_expands vals d n (by omega) h.2]
  | .sub v ix, d + 1, n, hd, h => by
    simp only [depth] at hd
    simp only [noTuple, Bool.and_eq_true] at h
    rw [expand]
    · simp only [plain_expand v d n (by omega) h.1, plain_expand ix d n (by omega) h.2]
    · intro es he; subst he; simp [noTuple] at h
  | .letx names vals body, d + 1, n, hd, h => by
    simp only [depth] at hd
    simp only [noTuple, Bool.and_eq_true] at h
    simp only [expand, plain_expand body d n (by omega) h.2, plain_expands vals d n (by omega) h.1]
  | .doe es, d + 1, n, hd, h => by
    simp only [depth] at hd
    simp only [expand, plain_expands es d n (by omega) h, Option.map]
  | .node k es, d + 1, n, hd, h => by
    simp only [depth] at hd
    simp only [expand, plain_expands es d n (by omega) h, Option.map]

private theorem plain_expands : ∀ (es : List (PE β)) (d n : Nat), depths es ≤ d → noTuples es = true →
    visits (expand d n) es = some es
  | [], _, _, _, _ => rfl
  | e :: es, d, n, hd, h => by
    simp only [depths] at hd
    simp only [noTuples, Bool.and_eq_true] at h
    simp only [visits, plain_expand e d n (by omega) h.1, plain_expands es d n (by omega) h.2]
end

/-- C92.  Code without tuples is left as it is. -/
theorem C92_no_tuples (d n : Nat) (e : PE β) (hd : depth e ≤ d) (h : noTuple e = true) : expand d n e = some e :=
  plain_expand e d n hd h

private theorem rightmost_iff {α : Type} (l : List (Option String × α)) :
    ∀ k v, (k, v) ∈ rightmost l ↔ ∃ before after, l = before ++ (k, v) :: after ∧ k ∉ after.map Prod.fst := by
  induction l with
  | nil => intro k v; simp [rightmost]
  | cons p l ih =>
    intro k v
    obtain ⟨k', v'⟩ := p
    simp only [rightmost]
    constructor
    · intro h
      by_cases hk : k' ∈ l.map Prod.fst
      · rw [if_pos hk] at h
        obtain ⟨a, b, rfl, hb⟩ := (ih k v).1 h
        exact ⟨(k', v') :: a, b, rfl, hb⟩
      · rw [if_neg hk] at h
        rcases List.mem_cons.1 h with h | h
        · cases h; exact ⟨[], l, rfl, hk⟩
        · obtain ⟨a, b, rfl, hb⟩ := (ih k v).1 h
          exact ⟨(k', v') :: a, b, rfl, hb⟩
    · rintro ⟨a, b, hab, hb⟩
      cases a with
      | nil =>
        cases hab
        rw [if_neg hb]
        exact List.mem_cons_self
      | cons x a =>
        cases hab
        have := (ih k v).2 ⟨a, b, rfl, hb⟩
        split
        · exact this
        · exact List.mem_cons_of_mem _ this

private theorem rightmost_nodup {α : Type} : ∀ (l : List (Option String × α)), ((rightmost l).map Prod.fst).Nodup
  | [] => by simp [rightmost]
  | (k, v) :: l => by
    simp only [rightmost]
    split
    · exact rightmost_nodup l
    · rename_i hk
      simp only [List.map_cons, List.nodup_cons]
      refine ⟨fun h => hk ?_, rightmost_nodup l⟩
      obtain ⟨p, hp, rfl⟩ := List.mem_map.1 h
      exact List.mem_map.2 ⟨p, Pf.rightmost_sub hp, rfl⟩

private theorem visits_zip {f : PE β → Option (PE β)} : ∀ {es es' : List (PE β)}, visits f es = some es' →
    ∀ {names : List (Option String)} {k v'}, (k, v') ∈ names.zip es' → ∃ v, (k, v) ∈ names.zip es ∧ f v = some v'
  | [], es', h, names, k, v', hm => by
    cases h; simp at hm
  | e :: es, es', h, [], k, v', hm => by simp at hm
  | e :: es, es', h, x :: names, k, v', hm => by
    simp only [visits] at h
    rcases he : f e with _ | e' <;> rcases hes : visits f es with _ | es'' <;> simp only [he, hes] at h <;> try contradiction
    cases h
    simp only [List.zip_cons_cons, List.mem_cons] at hm
    rcases hm with hm | hm
    · cases hm; exact ⟨e, by simp, he⟩
    · obtain ⟨v, hv, hf⟩ := visits_zip hes hm
      exact ⟨v, by simp [hv], hf⟩

/-- C92.  In a call `(f, ...)` no name is passed twice, and of several definitions of a named argument in `kw(...)` items the
rightmost one counts. -/
theorem C92_rightmost_wins (d : Nat) (op : PE β) (data args vals : List (PE β)) (f : PE β) (names : List (Option String))
    (hop : opOf op = none) (h : expand (d + 1) 0 (.tup (op :: data)) = some (.call f args names vals)) :
    names.Nodup ∧ ∀ k v', (k, v') ∈ names.zip vals → ∃ before v after,
      (data.filter isKw).flatMap keywords = before ++ (k, v) :: after ∧ k ∉ after.map Prod.fst ∧ expand d 0 v = some v' := by
  have hs : strip 0 op data = some (0, op, data) := by
    rw [Pf.strip_eq]; simp [hop, levelAfter]
  simp only [expand, hs, gt_iff_lt, Nat.lt_irrefl, if_false, Pf.uniqify_rightmost] at h
  split at h
  · split at h
    · rename_i h₁ h₂ h₃
      cases h
      refine ⟨rightmost_nodup _, fun k v' hm => ?_⟩
      obtain ⟨v, hv, hf⟩ := visits_zip h₃ hm
      have hz : ((rightmost ((data.filter isKw).flatMap keywords)).map Prod.fst).zip
          ((rightmost ((data.filter isKw).flatMap keywords)).map Prod.snd) = rightmost ((data.filter isKw).flatMap keywords) := by
        generalize rightmost ((data.filter isKw).flatMap keywords) = l
        induction l with
        | nil => rfl
        | cons p l ih => simp [ih]
      rw [hz] at hv
      obtain ⟨a, b, hab, hb⟩ := (rightmost_iff _ k v).1 hv
      exact ⟨a, v, b, hab, hb, hf⟩
    · cases h
  · cases h

/-! ## Examples -/

/-- Meanings as expressions: what is meant can be compared. -/
def prefixSyntax : Meaning Nat (PE Nat) where
  cst := .cst
  name := .name
  tup := .tup
  call f args kws := .call f args (kws.map Prod.fst) (kws.map Prod.snd)
  sub := .sub
  letx bs b := .letx (bs.map Prod.fst) (bs.map Prod.snd) b
  doe := .doe
  node := .node

/-- `(q, 1, (u, print, (f, 3)), (print, 4))` -/
private def exQuote : PE Nat := .tup [.name "q", .cst 1, .tup [.name "u", .name "print", .tup [.name "f", .cst 3]],
  .tup [.name "print", .cst 4]]

/-- The meaning is `(1, print(f(3)), (print, 4))`. -/
example : expand 9 0 exQuote = some (.tup [.cst 1, .call (.name "print") [.call (.name "f") [.cst 3] [] []] [] [],
    .tup [.name "print", .cst 4]]) := rfl
example : ok exQuote = true ∧ depth exQuote ≤ 9 := by decide
example : (expand 9 0 exQuote).map (interp prefixSyntax) = den prefixSyntax exQuote 0 :=
  C92_meaning_partial prefixSyntax 9 0 exQuote (by decide) (by decide)

/-- `(f, kw(a=1), 2, kw(b=3), kw(b=4))` is `f(2, a=1, b=4)`. -/
private def exKw : PE Nat := .tup [.name "f", .call (.name "kw") [] [some "a"] [.cst 1], .cst 2,
  .call (.name "kw") [] [some "b"] [.cst 3], .call (.name "kw") [] [some "b"] [.cst 4]]
example : expand 9 0 exKw = some (.call (.name "f") [.cst 2] [some "a", some "b"] [.cst 1, .cst 4]) := rfl
example : ok exKw = true := by decide
/-- Errors: `(u, x)` outside a quote; `(q, u)`; `(q, f, kw(a=1))`; `(f, kw(1))`. -/
example : expand 9 0 (.tup [.name "u", .name "x"] : PE Nat) = none ∧ expand 9 0 (.tup [.name "q", .name "u"] : PE Nat) = none ∧
    expand 9 0 (.tup [.name "q", .name "f", .call (.name "kw") [] [some "a"] [.cst 1]] : PE Nat) = none ∧
    expand 9 0 (.tup [.name "f", .call (.name "kw") [.cst 1] [] []] : PE Nat) = none := ⟨rfl, rfl, rfl, rfl⟩
example : noTuple (.call (.name "f") [.sub (.name "a") (.cst 1)] [] [] : PE Nat) = true := by decide

/-- C92.  There is no way to write the empty tuple in a `with prefix` block: although quoted, `(q, ())` makes the macro raise
ValueError. -/
theorem C92_empty_tuple_refuted (d : Nat) : expand d 0 (.tup [.name "q", .tup []] : PE Nat) = none ∧
    den prefixSyntax (.tup [.name "q", .tup []]) 0 = some (.tup [.tup []]) := by
  refine ⟨?_, rfl⟩
  match d with
  | 0 => rfl
  | 1 => rfl
  | d + 2 => rfl

/-- C92.  A `kw(...)` should take individual named arguments only, but `**d` in it is accepted; and of
`(f, kw(**d), kw(**e))` only `**e` remains. -/
theorem C92_double_star_refuted :
    let e : PE Nat := .tup [.name "f", .call (.name "kw") [] [none] [.name "d"], .call (.name "kw") [] [none] [.name "e"]]
    expand 9 0 e = some (.call (.name "f") [] [none] [.name "e"]) ∧ den prefixSyntax e 0 = none := ⟨rfl, rfl⟩

end Unpy.Props

import Verif.Spec.LetView
/-!
# The ways to write a `let`: helper lemmas
-/
namespace Unpy.Proof.LetView
open Unpy.LetView Unpy.Spec.LetView

theorem isName_iff : ∀ t : T, isName t = true ↔ Plain t
  | .name x => ⟨fun _ => .name x, fun _ => rfl⟩
  | .done t => ⟨fun h => .done ((isName_iff t).1 (by rwa [isName] at h)), fun h => by cases h with | done h => rw [isName]; exact (isName_iff t).2 h⟩
  | .tuple _ | .list _ | .call .. | .sub .. | .shift .. | .walrus .. | .compare .. | .valued .. | .other .. | .loop _ =>
    ⟨fun h => by simp [isName] at h, fun h => by cases h⟩

theorem isTarget_iff (ls : Bool) (t : T) : isTarget ls t = true ↔ Target ls t := by
  unfold isTarget
  constructor
  · intro h
    rw [Bool.or_eq_true] at h
    rcases h with h | h
    · exact .plain ((isName_iff t).1 h)
    · rw [Bool.and_eq_true] at h
      obtain ⟨hl, h⟩ := h
      split at h
      · exact .call _ hl ((isName_iff _).1 h)
      · exact .sub _ hl ((isName_iff _).1 h)
      · cases h
  · intro h
    cases h with
    | plain h => rw [(isName_iff t).2 h]; rfl
    | call args hl h => subst hl; simp [(isName_iff _).2 h]
    | sub arg hl h => subst hl; simp [(isName_iff _).2 h]

theorem target_mono {ls : Bool} {t : T} (h : Target false t) : Target ls t := by
  cases h with
  | plain h => exact .plain h
  | call _ h => cases h
  | sub _ h => cases h
theorem bindings_mono {ls : Bool} {ps : List (T × T)} {ts : List T} (h : Bindings false ps ts) : Bindings ls ps ts :=
  ⟨h.1, fun p hp => target_mono (h.2 p hp)⟩

theorem envAssign_of {ls : Bool} {p : T × T} {t : T} (h : Assigned p t) (hp : Target ls p.1) : ∃ b, envAssign ls t = some (b, p.1, p.2) := by
  have := (isTarget_iff ls p.1).2 hp
  cases h with
  | walrus k v => exact ⟨false, by simp [envAssign, this]⟩
  | shift k v => exact ⟨true, by simp [envAssign, this]⟩
theorem of_envAssign {ls : Bool} {t : T} {b : Bool} {k v : T} (h : envAssign ls t = some (b, k, v)) : Assigned (k, v) t ∧ Target ls k := by
  unfold envAssign at h
  split at h
  · split at h
    · cases h; exact ⟨.shift _ _, (isTarget_iff _ _).1 ‹_›⟩
    · cases h
  · split at h
    · cases h; exact ⟨.walrus _ _, (isTarget_iff _ _).1 ‹_›⟩
    · cases h
  · cases h

theorem isPair_iff {ls : Bool} {ts : List T} : isPair ls ts = true ↔ ∃ k v, ts = [k, v] ∧ Target ls k := by
  constructor
  · intro h
    unfold isPair at h
    split at h
    · exact ⟨_, _, rfl, (isTarget_iff _ _).1 h⟩
    · cases h
  · rintro ⟨k, v, rfl, h⟩
    exact (isTarget_iff _ _).2 h

theorem all_tuples {ls : Bool} : ∀ ts : List T, ts.all (isTuplePair ls) = true → ∃ ps : List (T × T), ts = pairs ps ∧ ∀ p ∈ ps, Target ls p.1
  | [], _ => ⟨[], rfl, by simp⟩
  | t :: ts, h => by
    rw [List.all_cons, Bool.and_eq_true] at h
    obtain ⟨ps, rfl, hp⟩ := all_tuples ts h.2
    have h1 := h.1
    unfold isTuplePair at h1
    split at h1
    · obtain ⟨k, v, rfl, hk⟩ := isPair_iff.1 h1
      exact ⟨(k, v) :: ps, rfl, by simpa using ⟨hk, fun a b hab => hp (a, b) hab⟩⟩
    · cases h1

theorem all_lists {ls : Bool} : ∀ ts : List T, ts.all (isListPair ls) = true → ∃ ps : List (T × T), ts = ps.map (fun p => .list [p.1, p.2]) ∧ ∀ p ∈ ps, Target ls p.1
  | [], _ => ⟨[], rfl, by simp⟩
  | t :: ts, h => by
    rw [List.all_cons, Bool.and_eq_true] at h
    obtain ⟨ps, rfl, hp⟩ := all_lists ts h.2
    have h1 := h.1
    unfold isListPair at h1
    split at h1
    · obtain ⟨k, v, rfl, hk⟩ := isPair_iff.1 h1
      exact ⟨(k, v) :: ps, rfl, by simpa using ⟨hk, fun a b hab => hp (a, b) hab⟩⟩
    · cases h1

theorem all_assigns {ls : Bool} : ∀ ts : List T, ts.all (fun b => (envAssign ls b).isSome) = true →
    ∃ ps : List (T × T), Assigneds ps ts ∧ (∀ p ∈ ps, Target ls p.1) ∧
      ts.filterMap (fun b => (envAssign ls b).map fun p => T.tuple [p.2.1, p.2.2]) = pairs ps
  | [], _ => ⟨[], .nil, by simp, rfl⟩
  | t :: ts, h => by
    rw [List.all_cons, Bool.and_eq_true] at h
    obtain ⟨ps, h1, h2, h3⟩ := all_assigns ts h.2
    obtain ⟨⟨b, k, v⟩, hv⟩ := Option.isSome_iff_exists.1 h.1
    obtain ⟨ha, hk⟩ := of_envAssign hv
    refine ⟨(k, v) :: ps, .cons ha h1, by simpa using ⟨hk, fun a b hab => h2 (a, b) hab⟩, ?_⟩
    rw [List.filterMap_cons, hv]
    simp only [Option.map_some, h3, pairs, List.map_cons]

theorem assigns_all {ls : Bool} {ps : List (T × T)} {ts : List T} (h : Assigneds ps ts) (hp : ∀ p ∈ ps, Target ls p.1) :
    ts.all (fun b => (envAssign ls b).isSome) = true ∧ ts.filterMap (fun b => (envAssign ls b).map fun p => T.tuple [p.2.1, p.2.2]) = pairs ps := by
  induction h with
  | nil => exact ⟨rfl, rfl⟩
  | @cons p t ps ts h1 _ ih =>
    obtain ⟨b, hb⟩ := envAssign_of h1 (hp p (by simp))
    obtain ⟨i1, i2⟩ := ih fun q hq => hp q (by simp [hq])
    refine ⟨by rw [List.all_cons, hb, i1]; rfl, ?_⟩
    rw [List.filterMap_cons, hb]
    simp only [Option.map_some, i2, pairs, List.map_cons]

theorem canonize_ok {ls : Bool} {ts bs : List T} (h : canonize ls ts = .ok bs) : ∃ ps, Bindings ls ps ts ∧ bs = pairs ps := by
  unfold canonize at h
  split at h
  · rename_i b k v heq
    cases h
    unfold single at heq
    split at heq
    · obtain ⟨ha, hk⟩ := of_envAssign heq
      exact ⟨[(k, v)], ⟨.assigns (.cons ha .nil), by simpa using hk⟩, rfl⟩
    · cases heq
  · split at h
    · rename_i hpair
      cases h
      obtain ⟨k, v, rfl, hk⟩ := isPair_iff.1 hpair
      exact ⟨[(k, v)], ⟨.single k v, by simpa using hk⟩, rfl⟩
    · split at h
      · rename_i hall
        cases h
        obtain ⟨ps, rfl, hp⟩ := all_tuples _ hall
        exact ⟨ps, ⟨.tuples ps, hp⟩, rfl⟩
      · split at h
        · rename_i hall
          cases h
          obtain ⟨ps, rfl, hp⟩ := all_lists _ hall
          refine ⟨ps, ⟨.lists ps, hp⟩, ?_⟩
          simp only [List.map_map, pairs]
          rfl
        · split at h
          · rename_i hall
            cases h
            obtain ⟨ps, h1, h2, h3⟩ := all_assigns _ hall
            exact ⟨ps, ⟨.assigns h1, h2⟩, h3⟩
          · cases h

theorem canonize_err {ls : Bool} {ts : List T} {e : Err} (h : canonize ls ts = .error e) : e = .syntaxError := by
  unfold canonize at h
  repeat' split at h
  all_goals first | cases h; rfl | cases h

theorem isPair_cons {ls : Bool} {t : T} {ts : List T} (h : isTarget ls t = false) : isPair ls (t :: ts) = false := by
  cases ts with
  | nil => rfl
  | cons s ts => cases ts <;> simp [isPair, h]

theorem canonize_of {ls : Bool} {ps : List (T × T)} {ts : List T} (h : Bindings ls ps ts) : canonize ls ts = .ok (pairs ps) := by
  obtain ⟨hw, hp⟩ := h
  cases hw with
  | tuples ps =>
    have hall : (pairs ps).all (isTuplePair ls) = true := by
      rw [List.all_eq_true]
      intro t ht
      obtain ⟨p, hp', rfl⟩ := List.mem_map.1 ht
      exact isPair_iff.2 ⟨p.1, p.2, rfl, hp p hp'⟩
    have hone : single ls (pairs ps) = none := by
      cases ps with
      | nil => rfl
      | cons p ps => cases ps <;> rfl
    have hpair : isPair ls (pairs ps) = false := by
      cases ps with
      | nil => rfl
      | cons p ps => exact isPair_cons (by simp [isTarget, isName])
    unfold canonize
    rw [hone]
    simp only [hpair, Bool.false_eq_true, if_false, hall, if_true]
  | lists ps =>
    cases ps with
    | nil => rfl
    | cons p ps =>
      have hall : ((p :: ps).map fun p => T.list [p.1, p.2]).all (isListPair ls) = true := by
        rw [List.all_eq_true]
        intro t ht
        obtain ⟨p, hp', rfl⟩ := List.mem_map.1 ht
        exact isPair_iff.2 ⟨p.1, p.2, rfl, hp p hp'⟩
      have hone : single ls ((p :: ps).map fun p => T.list [p.1, p.2]) = none := by
        cases ps <;> rfl
      have hpair : isPair ls ((p :: ps).map fun p => T.list [p.1, p.2]) = false := isPair_cons (by simp [isTarget, isName])
      unfold canonize
      rw [hone]
      simp only [hpair, Bool.false_eq_true, if_false, hall, if_true]
      rw [if_neg (by simp [isTuplePair])]
      simp only [List.map_map, pairs]
      rfl
  | assigns ha =>
    obtain ⟨h1, h2⟩ := assigns_all ha hp
    cases ha with
    | nil => rfl
    | @cons p t ps ts ha hr =>
      obtain ⟨b, hb⟩ := envAssign_of ha (hp p (by simp))
      cases hr with
      | nil =>
        unfold canonize
        simp only [single, hb]
        rfl
      | @cons p' t' ps ts ha' hr =>
        have ht : isTarget ls t = false ∧ (∀ ts, t ≠ .tuple ts) ∧ ∀ ts, t ≠ .list ts := by cases ha <;> simp [isTarget, isName]
        have hpair := isPair_cons (ts := t' :: ts) ht.1
        unfold canonize
        simp only [single, hpair, Bool.false_eq_true, if_false, h1, if_true, h2]
        rw [if_neg, if_neg]
        · rw [List.all_cons, Bool.and_eq_true]
          rintro ⟨h, _⟩
          unfold isListPair at h
          split at h
          · exact ht.2.2 _ rfl
          · cases h
        · rw [List.all_cons, Bool.and_eq_true]
          rintro ⟨h, _⟩
          unfold isTuplePair at h
          split at h
          · exact ht.2.1 _ rfl
          · cases h
  | single k v =>
    have hpair : isPair ls [k, v] = true := isPair_iff.2 ⟨k, v, rfl, hp (k, v) (by simp)⟩
    unfold canonize
    simp only [single, hpair, if_true]
    rfl

theorem macroargs_of {ts : List T} {b : T} (h : Bracketed ts b) : macroargs b = ts := by
  cases h with
  | tuple => rfl
  | list => rfl
  | one t h1 h2 => cases b <;> first | rfl | exact absurd rfl (h1 _) | exact absurd rfl (h2 _)

/-! ## Views -/

theorem haskelly_of {ps : List (T × T)} {body e : T} (h : Inside false ps body e) : ∃ k, haskelly e = some k ∧ k ≠ .decorator ∧ k ≠ .lispy ∧
    (∀ m c, (View.mk (if c then .sub (.name m) e else e) k (if c then some m else none) c).bindings = .ok (pairs ps)) ∧
    ∀ m c, (View.mk (if c then .sub (.name m) e else e) k (if c then some m else none) c).body = .ok body := by
  cases h with
  | inList body hb =>
    refine ⟨.letIn, by simp only [haskelly, canonize_of (bindings_mono hb)], by simp, by simp, fun m c => ?_, fun m c => ?_⟩
    · cases c <;> simp [View.bindings, View.expr, getSlice, macroargs, canonize_of hb]
    · cases c <;> simp [View.body, View.expr, getSlice]
  | inTuple body hb =>
    refine ⟨.letIn, by simp only [haskelly, canonize_of (bindings_mono hb)], by simp, by simp, fun m c => ?_, fun m c => ?_⟩
    · cases c <;> simp [View.bindings, View.expr, getSlice, macroargs, canonize_of hb]
    · cases c <;> simp [View.body, View.expr, getSlice]
  | whereBrackets body hb hn =>
    refine ⟨.letWhere, by simp [haskelly], by simp, by simp, fun m c => ?_, fun m c => ?_⟩
    · cases c <;> simp [View.bindings, View.expr, getSlice, bindingsIn, macroargs_of hn, canonize_of hb]
    · cases c <;> simp [View.body, View.expr, getSlice]
  | whereParens body hb =>
    refine ⟨.letWhere, by simp [haskelly], by simp, by simp, fun m c => ?_, fun m c => ?_⟩
    · cases c <;> simp [View.bindings, View.expr, getSlice, bindingsIn, canonize_of hb]
    · cases c <;> simp [View.body, View.expr, getSlice]

theorem notDeco {m : String} (h : m ∈ modes) : m ∉ decoNames ∧ m ∈ exprNames := by
  simp only [modes, List.mem_cons, List.not_mem_nil, or_false] at h
  rcases h with h | h | h | h | h <;> subst h <;> decide

theorem islet_sub {m : String} {e : T} (h : m ∈ modes) : islet (.sub (.name m) e) = (haskelly e).map fun h => (h, m) := by
  obtain ⟨h1, h2⟩ := notDeco h
  simp [islet, h1, isletExpr, h2]

theorem islet_bad {ps : List (T × T)} {body e : T} (h : Inside false ps body e) : islet e = none := by
  cases h <;> rfl

theorem view_let {m : String} (hm : m ∈ modes) {ps : List (T × T)} {body t : T} (h : Let false m ps body t) :
    ∃ k, view t = .ok ⟨t, k, some m, true⟩ ∧ (View.mk t k (some m) true).bindings = .ok (pairs ps) ∧ (View.mk t k (some m) true).body = .ok body := by
  obtain ⟨h1, h2⟩ := notDeco hm
  cases h with
  | brackets body hb hn =>
    exact ⟨.lispy, by simp [view, islet, isletExpr, h2], by simp [View.bindings, bindingsIn, macroargs_of hn, canonize_of hb], by simp [View.body, getSlice]⟩
  | parens body hb =>
    exact ⟨.lispy, by simp [view, islet, isletExpr, h2], by simp [View.bindings, bindingsIn, canonize_of hb], by simp [View.body, getSlice]⟩
  | inside hi =>
    obtain ⟨k, hk, _, _, hb, hbody⟩ := haskelly_of hi
    exact ⟨k, by simp [view, islet_sub hm, hk], by simpa using hb m true, by simpa using hbody m true⟩

theorem view_inside {ps : List (T × T)} {body t : T} (h : Inside false ps body t) :
    ∃ k, view t = .ok ⟨t, k, none, false⟩ ∧ (View.mk t k none false).bindings = .ok (pairs ps) ∧ (View.mk t k none false).body = .ok body := by
  obtain ⟨k, hk, _, _, hb, hbody⟩ := haskelly_of h
  exact ⟨k, by simp [view, islet_bad h, hk], by simpa using hb "" false, by simpa using hbody "" false⟩

theorem pairs_bindings {ls : Bool} {qs : List (T × T)} (h : ∀ p ∈ qs, Target ls p.1) : Bindings ls qs (pairs qs) := ⟨.tuples qs, h⟩

theorem bracketed_macroargs (b : T) : Bracketed (macroargs b) b := by
  cases b <;> first | exact .tuple _ | exact .list _ | exact .one _ (by simp) (by simp)

/-- What `haskelly` accepts, if the bindings can be read, is in the grammar. -/
theorem inside_of {e : T} {k : Kind} {m : Option String} {c : Bool} {t : T} (hk : haskelly e = some k)
    (hpar : ∀ l ops cs, e = .compare l ops cs → ops.length = cs.length) (he : (View.mk t k m c).expr = .ok e) {bs : List T}
    (hb : (View.mk t k m c).bindings = .ok bs) :
    ∃ ps body, bs = pairs ps ∧ (View.mk t k m c).body = .ok body ∧ Inside false ps body e := by
  have hcompare : ∀ {l cs}, e = .compare l ["in"] cs → ∃ b, cs = [b] := by
    intro l cs h
    have := hpar l _ cs h
    match cs, this with
    | [b], _ => exact ⟨b, rfl⟩
  unfold haskelly at hk
  split at hk
  · rename_i left cs
    obtain ⟨b, rfl⟩ := hcompare rfl
    split at hk
    · rename_i ts
      split at hk
      · cases hk
        simp only [View.bindings, he, macroargs] at hb
        obtain ⟨ps, hp, rfl⟩ := canonize_ok hb
        exact ⟨ps, b, rfl, by simp only [View.body, he], .inList b hp⟩
      · cases hk
    · rename_i ts
      split at hk
      · cases hk
        simp only [View.bindings, he, macroargs] at hb
        obtain ⟨ps, hp, rfl⟩ := canonize_ok hb
        exact ⟨ps, b, rfl, by simp only [View.body, he], .inTuple b hp⟩
      · cases hk
    · cases hk
  · rename_i b w args
    split at hk
    · rename_i hw
      subst hw
      cases hk
      simp only [View.bindings, he, bindingsIn] at hb
      obtain ⟨ps, hp, rfl⟩ := canonize_ok hb
      exact ⟨ps, b, rfl, by simp only [View.body, he], .whereParens b hp⟩
    · cases hk
  · rename_i b w s
    split at hk
    · rename_i hw
      subst hw
      cases hk
      simp only [View.bindings, he, bindingsIn] at hb
      obtain ⟨ps, hp, rfl⟩ := canonize_ok hb
      exact ⟨ps, b, rfl, by simp only [View.body, he], .whereBrackets b hp (bracketed_macroargs s)⟩
    · cases hk
  · cases hk

theorem islet_cases {t : T} {k : Kind} {m : String} (h : islet t = some (k, m)) :
    (k = .decorator ∧ m ∈ decoNames ∧ ((∃ b, t = .sub (.name m) b) ∨ ∃ args, t = .call (.name m) args)) ∨
    (m ∈ exprNames ∧ ((k = .lispy ∧ ((∃ b body, t = .sub (.sub (.name m) b) body) ∨ ∃ args body, t = .sub (.call (.name m) args) body)) ∨
      ∃ e, t = .sub (.name m) e ∧ haskelly e = some k)) := by
  have hexpr : isletExpr t = some (k, m) → (m ∈ exprNames ∧ ((k = .lispy ∧ ((∃ b body, t = .sub (.sub (.name m) b) body) ∨ ∃ args body, t = .sub (.call (.name m) args) body)) ∨
      ∃ e, t = .sub (.name m) e ∧ haskelly e = some k)) := by
    intro h
    unfold isletExpr at h
    split at h
    · split at h
      · cases h; exact ⟨‹_›, .inl ⟨rfl, .inl ⟨_, _, rfl⟩⟩⟩
      · cases h
    · split at h
      · cases h; exact ⟨‹_›, .inl ⟨rfl, .inr ⟨_, _, rfl⟩⟩⟩
      · cases h
    · split at h
      · rename_i s e _ hm
        cases hh : haskelly e with
        | none => rw [hh] at h; cases h
        | some k' => rw [hh] at h; cases h; exact ⟨hm, .inr ⟨_, rfl, hh⟩⟩
      · cases h
    · cases h
  unfold islet at h
  split at h
  · split at h
    · cases h; exact .inl ⟨rfl, ‹_›, .inl ⟨_, rfl⟩⟩
    · exact .inr (hexpr h)
  · split at h
    · cases h; exact .inl ⟨rfl, ‹_›, .inr ⟨_, rfl⟩⟩
    · exact .inr (hexpr h)
  · exact .inr (hexpr h)

theorem named_iff : ∀ (t : T) (x : String), getName t = some x ↔ Named t x
  | .name y, x => ⟨fun h => by cases h; exact .name _, fun h => by cases h; rfl⟩
  | .done t, x => ⟨fun h => .done ((named_iff t x).1 (by rwa [getName] at h)), fun h => by cases h with | done h => rw [getName]; exact (named_iff t x).2 h⟩
  | .tuple _, _ | .list _, _ | .call .., _ | .sub .., _ | .shift .., _ | .walrus .., _ | .compare .., _ | .valued .., _ | .other .., _ | .loop _, _ =>
    ⟨fun h => by simp [getName] at h, fun h => by cases h⟩

theorem named_plain {t : T} {x : String} (h : Named t x) : Plain t := by
  induction h with
  | name x => exact .name x
  | done _ ih => exact .done ih

end Unpy.Proof.LetView

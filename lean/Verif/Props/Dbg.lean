import Verif.Spec.Dbg
/-! # C125: debug prints -/
namespace Unpy.Props
open Unpy.Dbg Unpy.Spec.Dbg
variable {N V : Type} {m : Type → Type} [Monad m] [LawfulMonad m]

private theorem evalKws_append (w : World m N V) (a b : List (String × Ex N)) :
    evalKws w (a ++ b) = (do let x ← evalKws w a; let y ← evalKws w b; pure (x ++ y)) := by
  induction a with
  | nil => simp [evalKws]
  | cons p a ih => obtain ⟨k, e⟩ := p; simp [evalKws, ih]

private theorem evalArgs_strs (w : World m N V) (l : List (Bool × Ex N)) (f : Bool × Ex N → String) :
    evalArgs w (l.map (fun a => (false, Ex.str (f a)))) = pure (l.map (fun a => w.str (f a))) := by
  induction l with
  | nil => simp [evalArgs]
  | cons a l ih => simp [evalArgs, eval, ih]

private theorem transform_call (source : Bool × Ex N → String) (pname : String) (pf : Ex N) (line : Option Nat) (f : Ex N) (args : List (Bool × Ex N)) (kws : List (String × Ex N)) (h : isPrint pname f = false) :
    transform source pname pf (.call line f args kws) = .call line (transform source pname pf f) (transformArgs source pname pf args) (transformKws source pname pf kws) := by
  cases f <;> simp_all [transform, isPrint]

private theorem transform_print (source : Bool × Ex N → String) (pname : String) (pf : Ex N) (line : Option Nat) (f : Ex N) (args : List (Bool × Ex N)) (kws : List (String × Ex N)) (h : isPrint pname f = true) :
    transform source pname pf (.call line f args kws) = .call line pf
        [(false, .tuple (args.map (fun a => (false, .str (source a))))), (false, .tuple (transformArgs source pname pf args))]
        (transformKws source pname pf kws ++ [("filename", .call none (.cap .callsiteFilename) [] []), ("lineno", .num line)]) := by
  cases f <;> simp_all [transform, isPrint]

mutual
private theorem block_eval (w : World m N V) (source : Bool × Ex N → String) (pname : String) (pf : Ex N) : ∀ (e : Ex N), NoStar pname e →
    eval w (transform source pname pf e) = debug w source pname (eval w pf) e
  | .name x, _ => by simp [transform, eval, debug]
  | .str s, _ => by simp [transform, eval, debug]
  | .num n, _ => by simp [transform, eval, debug]
  | .cap c, _ => by simp [transform, eval, debug]
  | .tuple items, h => by
    simp only [transform, eval, debug]
    rw [block_args w source pname pf items (by simpa [NoStar] using h)]
  | .call line f args kws, h => by
    simp only [NoStar] at h
    obtain ⟨h1, h2, h3, h4⟩ := h
    have hf := block_eval w source pname pf f h2
    have ha := block_args w source pname pf args h3
    have hk := block_kws w source pname pf kws h4
    cases hp : isPrint pname f with
    | true =>
      have he := block_each w source pname pf args h3 (h1 hp)
      rw [transform_print _ _ _ _ _ _ _ hp]
      simp [eval, debug, hp, evalArgs, evalArgs_strs, he, evalKws_append, evalKws, hk]
    | false =>
      rw [transform_call _ _ _ _ _ _ _ hp]
      simp [eval, debug, hp, hf, ha, hk]
  | .node t parts, h => by
    simp only [transform, eval, debug]
    rw [block_all w source pname pf parts (by simpa [NoStar] using h)]

private theorem block_args (w : World m N V) (source : Bool × Ex N → String) (pname : String) (pf : Ex N) : ∀ (l : List (Bool × Ex N)), NoStarArgs pname l →
    evalArgs w (transformArgs source pname pf l) = debugArgs w source pname (eval w pf) l
  | [], _ => by simp [transformArgs, evalArgs, debugArgs]
  | (star, e) :: rest, h => by
    simp only [NoStarArgs] at h
    simp only [transformArgs, evalArgs, debugArgs]
    rw [block_eval w source pname pf e h.1, block_args w source pname pf rest h.2]

private theorem block_each (w : World m N V) (source : Bool × Ex N → String) (pname : String) (pf : Ex N) : ∀ (l : List (Bool × Ex N)), NoStarArgs pname l → (∀ a ∈ l, a.1 = false) →
    evalArgs w (transformArgs source pname pf l) = debugEach w source pname (eval w pf) l
  | [], _, _ => by simp [transformArgs, evalArgs, debugEach]
  | (star, e) :: rest, h, hs => by
    simp only [NoStarArgs] at h
    have : star = false := hs _ (List.mem_cons_self)
    subst this
    simp only [transformArgs, evalArgs, debugEach]
    rw [block_eval w source pname pf e h.1, block_each w source pname pf rest h.2 (fun a ha => hs a (List.mem_cons_of_mem _ ha))]
    simp

private theorem block_kws (w : World m N V) (source : Bool × Ex N → String) (pname : String) (pf : Ex N) : ∀ (l : List (String × Ex N)), NoStarKws pname l →
    evalKws w (transformKws source pname pf l) = debugKws w source pname (eval w pf) l
  | [], _ => by simp [transformKws, evalKws, debugKws]
  | (k, e) :: rest, h => by
    simp only [NoStarKws] at h
    simp only [transformKws, evalKws, debugKws]
    rw [block_eval w source pname pf e h.1, block_kws w source pname pf rest h.2]

private theorem block_all (w : World m N V) (source : Bool × Ex N → String) (pname : String) (pf : Ex N) : ∀ (l : List (Ex N)), NoStarAll pname l →
    evalAll w (transformAll source pname pf l) = debugAll w source pname (eval w pf) l
  | [], _ => by simp [transformAll, evalAll, debugAll]
  | e :: es, h => by
    simp only [NoStarAll] at h
    simp only [transformAll, evalAll, debugAll]
    rw [block_eval w source pname pf e h.1, block_all w source pname pf es h.2]
end

/-- C125: a `with dbg` block does what the program does, with the same effects in the same order, except that each call of `print` prints the source code of its arguments with their values.
(Missing: arguments with a star, see `C125_star_refuted`.) -/
theorem C125_block_partial (w : World m N V) (source : Bool × Ex N → String) (e : Ex N) (h : NoStar "print" e) :
    eval w (dbgBlock source none e) = debug w source "print" (w.capture .dbgprintBlock) e := by
  have := block_eval w source "print" (.cap .dbgprintBlock) e h
  simpa [dbgBlock, eval] using this

/-- C125: with a custom print function, the calls of that function get the source code and the values (and those of `print` are left alone).
(Missing: arguments with a star and nested blocks, see `C125_star_refuted` and `C125_nested_refuted`.) -/
theorem C125_custom_partial (w : World m N V) (source : Bool × Ex N → String) (p : String) (e : Ex N) (h : NoStar p e) :
    eval w (dbgBlock source (some p) e) = debug w source p (w.lookup p) e := by
  have := block_eval w source p (.name p) e h
  simpa [dbgBlock, eval] using this

mutual
private theorem same_ex (source : Bool × Ex N → String) (p : String) (pf : Ex N) : ∀ (e : Ex N), NoPrint p e → transform source p pf e = e
  | .name x, _ => by simp [transform]
  | .str s, _ => by simp [transform]
  | .num n, _ => by simp [transform]
  | .cap c, _ => by simp [transform]
  | .tuple items, h => by
    simp only [transform]; rw [same_args source p pf items (by simpa [NoPrint] using h)]
  | .call line f args kws, h => by
    simp only [NoPrint] at h
    rw [transform_call _ _ _ _ _ _ _ h.1, same_ex source p pf f h.2.1, same_args source p pf args h.2.2.1, same_kws source p pf kws h.2.2.2]
  | .node t parts, h => by
    simp only [transform]; rw [same_all source p pf parts (by simpa [NoPrint] using h)]

private theorem same_args (source : Bool × Ex N → String) (p : String) (pf : Ex N) : ∀ (l : List (Bool × Ex N)), NoPrintArgs p l → transformArgs source p pf l = l
  | [], _ => by simp [transformArgs]
  | (s, e) :: rest, h => by
    simp only [NoPrintArgs] at h
    rw [transformArgs, same_ex source p pf e h.1, same_args source p pf rest h.2]

private theorem same_kws (source : Bool × Ex N → String) (p : String) (pf : Ex N) : ∀ (l : List (String × Ex N)), NoPrintKws p l → transformKws source p pf l = l
  | [], _ => by simp [transformKws]
  | (s, e) :: rest, h => by
    simp only [NoPrintKws] at h
    rw [transformKws, same_ex source p pf e h.1, same_kws source p pf rest h.2]

private theorem same_all (source : Bool × Ex N → String) (p : String) (pf : Ex N) : ∀ (l : List (Ex N)), NoPrintAll p l → transformAll source p pf l = l
  | [], _ => by simp [transformAll]
  | e :: es, h => by
    simp only [NoPrintAll] at h
    rw [transformAll, same_ex source p pf e h.1, same_all source p pf es h.2]
end

omit [Monad m] [LawfulMonad m] in
/-- C125: a program that does not call the print function by its name is left as it is. -/
theorem C125_unchanged (source : Bool × Ex N → String) (custom : Option String) (e : Ex N) (h : NoPrint (custom.getD "print") e) : dbgBlock source custom e = e := by
  cases custom <;> exact same_ex source _ _ e h

/-- C125: `dbg[expr]` evaluates the expression once, and gives its source code and its value to the printer. -/
theorem C125_expr (w : World m N V) (source : Bool × Ex N → String) (line : Option Nat) (e : Ex N) :
    eval w (dbgExpr source line e) = (do
      let p ← w.capture .dbgprintExpr
      let v ← eval w e
      let callsite ← w.capture .callsiteFilename
      let file ← w.apply callsite [] []
      w.apply p [w.str (source (false, e)), v] [("filename", file), ("lineno", w.num line)]) := by
  simp [dbgExpr, eval, evalArgs, evalKws]

/-- C125: so if the printer, whatever it does, returns the value, then `dbg[expr]` has the value of the expression, with the effects of the printer after those of the expression. -/
theorem C125_expr_value (w : World m N V) (source : Bool × Ex N → String) (line : Option Nat) (e : Ex N) (printer callsite : V) (file : V)
    (hp : w.capture .dbgprintExpr = pure printer) (hc : w.capture .callsiteFilename = pure callsite) (hf : w.apply callsite [] [] = pure file)
    (effect : V → V → m Unit) (hpr : ∀ k v, w.apply printer [k, v] [("filename", file), ("lineno", w.num line)] = do effect k v; pure v) :
    eval w (dbgExpr source line e) = (do
      let v ← eval w e
      effect (w.str (source (false, e))) v
      pure v) := by
  rw [C125_expr]
  simp [hp, hc, hf, hpr]

private theorem zip_pairs (ks vs : List String) : (ks.zip vs).map (fun (k, v) => k ++ ": " ++ v) = pairs ks vs := by
  induction ks generalizing vs with
  | nil => rfl
  | cons k ks ih => cases vs with
    | nil => rfl
    | cons v vs => simp only [List.zip_cons_cons, List.map_cons, pairs]; rw [ih]

omit [Monad m] [LawfulMonad m] in
/-- C125: what is printed by default: file and line, then each source code with its value, with the separator between; if the separator has a line break, file and line are repeated for each.
(Missing: `sep=None`, see `C125_sep_refuted`.) -/
theorem C125_text_partial (file line sep : String) (ks vs : List String) :
    blockText file line (some sep) ks vs = some (if '\n' ∈ sep.toList then sep.intercalate ((pairs ks vs).map (fun s => "[" ++ file ++ ":" ++ line ++ "] " ++ s)) else
      "[" ++ file ++ ":" ++ line ++ "] " ++ sep.intercalate (pairs ks vs)) := by
  simp only [blockText, ← zip_pairs, List.map_map]
  split
  · congr 3
    simp [Function.comp_def, String.append_assoc]
  · rfl

omit [Monad m] [LawfulMonad m] in
/-- C125 is violated for `sep=None`, which the built-in `print` takes for the default separator: there is a TypeError. -/
theorem C125_sep_refuted (file line : String) (ks vs : List String) : blockText file line none ks vs = none := rfl

/-- A program of two variables whose prints are written down: the texts and values that the printer gets -/
private def demo : World (StateM (List (List String × List Nat))) Unit (List Nat ⊕ List String) where
  lookup x := pure (if x = "xs" then .inl [1, 2] else .inl [7])
  capture _ := pure (.inl [])
  apply _ args _ := fun s => (.inl [], match args with
    | [.inr ks, .inl vs] => s ++ [(ks, vs)]
    | _ => s)
  items v := pure (match v with
    | .inl l => l.map (fun n => .inl [n])
    | .inr l => l.map (fun n => .inr [n]))
  node _ parts := fun s => (.inl [], parts.foldl (fun s p => (p s).2) s)
  tup vs := match vs with
    | .inr _ :: _ => .inr (vs.flatMap (fun v => match v with | .inr l => l | .inl _ => []))
    | _ => .inl (vs.flatMap (fun v => match v with | .inl l => l | .inr _ => []))
  str s := .inr [s]
  num _ := .inl []

private def demoSource : Bool × Ex Unit → String
  | (star, .name x) => (if star then "*" else "") ++ x
  | _ => "..."

omit [Monad m] [LawfulMonad m] in
/-- C125 is violated for arguments with a star: in `print(*xs)`, where `xs` is `[1, 2]`, the printer gets one source code but two values; so by default, only the first value is printed. -/
theorem C125_star_refuted (file line : String) :
    (eval demo (dbgBlock demoSource none (.call none (.name "print") [(true, .name "xs")] [])) []).2 = [(["*xs"], [1, 2])] ∧
    blockText file line (some ", ") ["*xs"] ["1", "2"] = some ("[" ++ file ++ ":" ++ line ++ "] " ++ "*xs: 1") := by
  constructor
  · rfl
  · rw [C125_text_partial, if_neg (by decide)]
    rfl

omit [Monad m] [LawfulMonad m] in
/-- C125 is violated for nested `with dbg[prt]` blocks with the same custom print function: the inner calls are transformed twice, which gives them the named arguments `filename` and `lineno` twice: a SyntaxError. -/
theorem C125_nested_refuted (source : Bool × Ex N → String) (p : String) (line : Option Nat) (args : List (Bool × Ex N)) :
    ∃ args' kws', dbgBlock source (some p) (dbgBlock source (some p) (.call line (.name p) args [])) = .call line (.name p) args' kws' ∧ repeated kws' = true := by
  refine ⟨_, _, by simp only [dbgBlock, transform, if_true]; exact rfl, ?_⟩
  simp [transformKws, repeated]

-- two prints, one inside the other
private def demoProg : Ex Unit := .node () [.call (some 3) (.name "print") [(false, .name "x"), (false, .call (some 4) (.name "print") [(false, .name "y")] [])] [], .call none (.name "f") [(true, .name "xs")] []]
example : NoStar "print" demoProg := by
  simp [demoProg, NoStar, NoStarArgs, NoStarKws, NoStarAll, isPrint]
example : (eval demo (dbgBlock demoSource none demoProg) []).2 = [(["y"], [7]), (["x", "..."], [7])] := rfl
example : NoPrint "prt" demoProg := by
  simp [demoProg, NoPrint, NoPrintArgs, NoPrintKws, NoPrintAll, isPrint]

-- a printer that writes the value down and returns it
private def demoPrinter : World (StateM (List Nat)) Unit Nat where
  lookup _ := pure 5
  capture _ := pure 0
  apply _ args _ := match args with
    | [_, v] => do
      modify (· ++ [v])
      pure v
    | _ => pure 0
  items _ := pure []
  node _ _ := pure 0
  tup _ := 0
  str _ := 1
  num _ := 0
example : demoPrinter.capture .dbgprintExpr = pure 0 ∧ demoPrinter.apply 0 [] [] = pure 0 ∧
    ∀ k v, demoPrinter.apply 0 [k, v] [("filename", 0), ("lineno", 0)] = (do (fun _ v => modify (· ++ [v])) k v; pure v) := ⟨rfl, rfl, fun _ _ => rfl⟩
example : eval demoPrinter (dbgExpr demoSource none (.name "x")) [] = (5, [5]) := rfl

end Unpy.Props

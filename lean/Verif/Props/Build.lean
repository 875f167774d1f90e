import Verif.Model.Build
import Mathlib.Data.List.Infix

/-!
# C52, C56: backend selection and compile switches

What an equation text uses is said at the level of characters.
-/

namespace Verif

/-- The text calls the function `f`: `f(` occurs, and not as the end of a longer name. -/
def CallsFn (f e : Str) : Prop :=
  ∃ p s, e = p ++ (f ++ "(".toList) ++ s ∧
    ∀ c, p.getLast? = some c → c.isAlphanum = false ∧ c ≠ '_'

/-- The text broadcasts: in some bracket without inner brackets the word `None` occurs. -/
def Broadcasts (e : Str) : Prop :=
  ∃ p a b s, e = p ++ ("[".toList ++ (a ++ "None".toList ++ b) ++ "]".toList) ++ s ∧
    (∀ c ∈ a ++ b, c ≠ '[' ∧ c ≠ ']')

theorem broadcasts_of_literal (e : Str)
    (h : "[:, None]".toList <:+: e ∨ "[None, :]".toList <:+: e) : Broadcasts e := by
  rcases h with ⟨p, s, rfl⟩ | ⟨p, s, rfl⟩
  · exact ⟨p, ":, ".toList, [], s, rfl, by decide +kernel⟩
  · exact ⟨p, [], ", :".toList, s, rfl, by decide +kernel⟩

theorem infix_of_callsFn (f e : Str) (h : CallsFn f e) : (f ++ "(".toList) <:+: e := by
  obtain ⟨p, s, rfl, -⟩ := h
  exact ⟨p, s, rfl⟩

/-- **C52 (default backend), the texts the code looks for.**  For every list of equations the default is
`pytensor` exactly when one of them contains `[:, None]` or `[None, :]` and none contains `Sum(` or
`Prod(`; in every other case, also when both occur, it is `sympytensor`. -/
theorem C52_default_literal (eqs : List Str) :
    (determineDefaultBackend eqs = "pytensor".toList ↔
      (∃ e ∈ eqs, "[:, None]".toList <:+: e ∨ "[None, :]".toList <:+: e) ∧
      ∀ e ∈ eqs, ¬ "Sum(".toList <:+: e ∧ ¬ "Prod(".toList <:+: e) ∧
    (determineDefaultBackend eqs ≠ "pytensor".toList →
      determineDefaultBackend eqs = "sympytensor".toList) := by
  have hne : ("sympytensor".toList : Str) ≠ "pytensor".toList := by decide +kernel
  unfold determineDefaultBackend
  by_cases h1 : (eqs.any fun e => strIn "Sum(".toList e || strIn "Prod(".toList e) = true
  · rw [if_pos h1]
    refine ⟨⟨fun h => absurd h hne, ?_⟩, fun _ => rfl⟩
    rintro ⟨-, h⟩
    rw [List.any_eq_true] at h1
    obtain ⟨e, he, h1⟩ := h1
    simp only [strIn, Bool.or_eq_true, decide_eq_true_eq] at h1
    rcases h1 with h1 | h1
    · exact absurd h1 (h e he).1
    · exact absurd h1 (h e he).2
  · rw [if_neg h1]
    have hno : ∀ e ∈ eqs, ¬ "Sum(".toList <:+: e ∧ ¬ "Prod(".toList <:+: e := by
      intro e he
      constructor <;> intro hin <;> apply h1 <;> rw [List.any_eq_true] <;>
        refine ⟨e, he, ?_⟩ <;> simp only [strIn, Bool.or_eq_true, decide_eq_true_eq]
      · exact Or.inl hin
      · exact Or.inr hin
    by_cases h2 : (eqs.any fun e => strIn "[:, None]".toList e || strIn "[None, :]".toList e) = true
    · rw [if_pos h2]
      refine ⟨⟨fun _ => ⟨?_, hno⟩, fun _ => rfl⟩, fun h => absurd rfl h⟩
      rw [List.any_eq_true] at h2
      obtain ⟨e, he, h2⟩ := h2
      simp only [strIn, Bool.or_eq_true, decide_eq_true_eq] at h2
      exact ⟨e, he, h2⟩
    · rw [if_neg h2]
      refine ⟨⟨fun h => absurd h hne, ?_⟩, fun _ => rfl⟩
      rintro ⟨⟨e, he, h⟩, -⟩
      exfalso
      apply h2
      rw [List.any_eq_true]
      refine ⟨e, he, ?_⟩
      simpa only [strIn, Bool.or_eq_true, decide_eq_true_eq] using h

example : determineDefaultBackend ["X.sum() - 1".toList, "A[:, None] * B[None, :] - C".toList] =
    "pytensor".toList := by decide +kernel

example : determineDefaultBackend ["Sum(X[i], (i, 0, 2)) - 1".toList, "A[:, None] - C".toList] =
    "sympytensor".toList := by decide +kernel

/-- **C52 (default backend), for equations in the usual spelling.**  When broadcasting is always spelt
`[:, None]` or `[None, :]` and the letters `Sum(`, `Prod(` occur only as calls of those functions, the
default is `pytensor` exactly when some equation broadcasts and none calls `Sum` or `Prod`, and
`sympytensor` otherwise. -/
theorem C52_default_backend_partial (eqs : List Str)
    (hb : ∀ e ∈ eqs, Broadcasts e → "[:, None]".toList <:+: e ∨ "[None, :]".toList <:+: e)
    (hs : ∀ e ∈ eqs, "Sum(".toList <:+: e → CallsFn "Sum".toList e)
    (hp : ∀ e ∈ eqs, "Prod(".toList <:+: e → CallsFn "Prod".toList e) :
    ((∃ e ∈ eqs, Broadcasts e) ∧ (∀ e ∈ eqs, ¬ CallsFn "Sum".toList e ∧ ¬ CallsFn "Prod".toList e) →
      determineDefaultBackend eqs = "pytensor".toList) ∧
    (¬ ((∃ e ∈ eqs, Broadcasts e) ∧
        ∀ e ∈ eqs, ¬ CallsFn "Sum".toList e ∧ ¬ CallsFn "Prod".toList e) →
      determineDefaultBackend eqs = "sympytensor".toList) := by
  have key : (∃ e ∈ eqs, Broadcasts e) ∧
        (∀ e ∈ eqs, ¬ CallsFn "Sum".toList e ∧ ¬ CallsFn "Prod".toList e) ↔
      determineDefaultBackend eqs = "pytensor".toList := by
    rw [(C52_default_literal eqs).1]
    constructor
    · rintro ⟨⟨e, he, h1⟩, h2⟩
      exact ⟨⟨e, he, hb e he h1⟩, fun e he =>
        ⟨fun h => (h2 e he).1 (hs e he h), fun h => (h2 e he).2 (hp e he h)⟩⟩
    · rintro ⟨⟨e, he, h1⟩, h2⟩
      exact ⟨⟨e, he, broadcasts_of_literal e h1⟩, fun e he =>
        ⟨fun h => (h2 e he).1 (infix_of_callsFn _ _ h), fun h => (h2 e he).2 (infix_of_callsFn _ _ h)⟩⟩
  exact ⟨key.1, fun h => (C52_default_literal eqs).2 fun h' => h (key.2 h')⟩

example : Broadcasts "A[:, None] - C".toList ∧
    ("[:, None]".toList <:+: ("A[:, None] - C".toList : Str)) ∧
    ¬ ("Sum(".toList <:+: ("A[:, None] - C".toList : Str)) ∧
    ¬ ("Prod(".toList <:+: ("A[:, None] - C".toList : Str)) :=
  ⟨⟨"A".toList, ":, ".toList, [], " - C".toList, by decide +kernel, by decide +kernel⟩, by decide +kernel, by decide +kernel, by decide +kernel⟩

/-- **C52, other spellings.**  Broadcasting without the blank, or over three axes, is not noticed: the
default is `sympytensor`, which cannot read such an equation. -/
theorem C52_spelling_counterexample :
    ∃ e e' : Str, Broadcasts e ∧ Broadcasts e' ∧
      (¬ CallsFn "Sum".toList e ∧ ¬ CallsFn "Prod".toList e) ∧
      determineDefaultBackend [e] = "sympytensor".toList ∧
      determineDefaultBackend [e'] = "sympytensor".toList := by
  refine ⟨"A[:,None] - C".toList, "A[:, :, None] - C".toList,
    ⟨"A".toList, ":,".toList, [], " - C".toList, by decide +kernel, by decide +kernel⟩,
    ⟨"A".toList, ":, :, ".toList, [], " - C".toList, by decide +kernel, by decide +kernel⟩, ⟨?_, ?_⟩, by decide +kernel,
    by decide +kernel⟩
  · intro h; exact absurd (infix_of_callsFn _ _ h) (by decide +kernel)
  · intro h; exact absurd (infix_of_callsFn _ _ h) (by decide +kernel)

/-- **C52, longer names.**  A call of a function whose name only ends in `Sum` turns the default from
`pytensor` to `sympytensor`. -/
theorem C52_longer_name_counterexample :
    ∃ e : Str, Broadcasts e ∧ ¬ CallsFn "Sum".toList e ∧ ¬ CallsFn "Prod".toList e ∧
      determineDefaultBackend [e] = "sympytensor".toList := by
  refine ⟨"A[:, None] - rowSum(C)".toList,
    ⟨"A".toList, ":, ".toList, [], " - rowSum(C)".toList, by decide +kernel, by decide +kernel⟩, ?_, ?_, by decide +kernel⟩
  · rintro ⟨p, s, he, hp⟩
    have hlen := congrArg List.length he
    simp at hlen
    have hall : ∀ k : Fin 22, ("A[:, None] - rowSum(C)".toList : Str).take 4 ≠ [] → 
        ((("A[:, None] - rowSum(C)".toList : Str).drop k).take 4 = "Sum(".toList → k = 16) := by decide +kernel
    have hk : p.length < 22 := by omega
    have hd : (("A[:, None] - rowSum(C)".toList : Str).drop p.length).take 4 = "Sum(".toList := by
      rw [he, List.append_assoc, List.drop_left]
      exact List.take_left' rfl
    have h16 := hall ⟨p.length, hk⟩ (by decide +kernel) hd
    have h16' : p.length = 16 := congrArg Fin.val h16
    have hpe : p = ("A[:, None] - row".toList : Str) := by
      have : ("A[:, None] - rowSum(C)".toList : Str).take 16 = p := by
        rw [he, ← h16', List.append_assoc, List.take_left]
      rw [← this]; decide
    have := hp 'w' (by rw [hpe]; decide)
    exact absurd this.1 (by decide +kernel)
  · intro h; exact absurd (infix_of_callsFn _ _ h) (by decide +kernel)

/-! ## Parsing and compiling -/

theorem chooseMaker_cases (b : Str) (mode : Option Str) (jf : Bool) (mk : Maker)
    (h : chooseMaker b mode jf = .ok mk) :
    (mk = .jax ∧ b = "pytensor".toList ∧ jf = true ∧
      ∃ s, mode = some s ∧ s.map Char.toUpper = "JAX".toList) ∨
    (mk = .pytensor ∧ b = "pytensor".toList ∧ ¬ (jf = true ∧
      ∃ s, mode = some s ∧ s.map Char.toUpper = "JAX".toList)) ∨
    (mk = .numba ∧ b = "numba".toList) ∨ (mk = .sympytensor ∧ b = "sympytensor".toList) := by
  unfold chooseMaker compileFuncFactory dgetE at h
  generalize "pytensor".toList = p at *
  generalize "numba".toList = n at *
  generalize "sympytensor".toList = s at *
  generalize "JAX".toList = j at *
  split at h
  · rename_i hj
    cases h
    obtain ⟨h1, h2, h3⟩ := hj
    cases mode with
    | none => cases h2
    | some m => exact Or.inl ⟨rfl, h1, h3, m, rfl, Option.some.inj h2⟩
  · rename_i hj
    rw [dget_cons, dget_cons, dget_cons, dget_nil] at h
    by_cases c1 : p = b
    · rw [if_pos c1] at h
      cases h
      refine Or.inr (Or.inl ⟨rfl, c1.symm, ?_⟩)
      rintro ⟨h1, m, rfl, h2⟩
      exact hj ⟨c1.symm, congrArg some h2, h1⟩
    · rw [if_neg c1] at h
      by_cases c2 : n = b
      · rw [if_pos c2] at h; cases h; exact Or.inr (Or.inr (Or.inl ⟨rfl, c2.symm⟩))
      · rw [if_neg c2] at h
        by_cases c3 : s = b
        · rw [if_pos c3] at h; cases h; exact Or.inr (Or.inr (Or.inr ⟨rfl, c3.symm⟩))
        · rw [if_neg c3] at h; cases h

theorem cgeModelBuild_ok (backend mode : Option Str) (jaxFound : Bool) (eqs : List Str)
    (fns : CompileArg) (scan rk4 : Bool) (m : Built)
    (h : cgeModelBuild backend mode jaxFound eqs fns scan rk4 = .ok m) :
    m.backend = backend.getD (determineDefaultBackend eqs) ∧
    chooseMaker m.backend mode jaxFound = .ok m.maker ∧
    (m.parsed = true ↔ m.backend = "numba".toList ∨ m.backend = "sympytensor".toList) ∧
    runMaker m.maker ((parseCompileKwarg fns).getD []) scan rk4 = .ok m.functions := by
  unfold cgeModelBuild at h
  simp only [bind, Except.bind, pure, Except.pure] at h
  generalize backend.getD (determineDefaultBackend eqs) = b at h
  split at h
  · cases h
  · rename_i mk hmk
    split at h
    · cases h
    · rename_i fs hfs
      cases h
      exact ⟨rfl, hmk, decide_eq_true_iff, hfs⟩

/-- Every outcome of a maker, in one place. -/
theorem runMaker_ok (mk : Maker) (l : List PyAtom) (scan rk4 : Bool) (fs : FnSet)
    (h : runMaker mk l scan rk4 = .ok fs) :
    fs = ⟨true, l.contains (.str "root".toList), l.contains (.str "minimize".toList),
      l.contains (.str "minimize".toList), l.contains (.str "minimize".toList),
      l.contains (.str "minimize".toList), l.contains (.str "euler".toList), fs.eulerRk4⟩ ∧
    (fs.eulerRk4 = true → l.contains (.str "euler".toList) = true) ∧
    (mk = .numba → fs.eulerRk4 = false) ∧
    (mk ≠ .numba → rk4 = true → l.contains (.str "euler".toList) = true → fs.eulerRk4 = true) := by
  unfold runMaker at h
  dsimp only at h
  generalize l.contains (.str "root".toList) = r at *
  generalize l.contains (.str "minimize".toList) = mi at *
  generalize l.contains (.str "euler".toList) = e at *
  cases mk <;> cases e <;> cases scan <;> cases rk4 <;>
    simp at h <;> subst h <;> simp

/-- **C52 (parsing).**  Whatever is asked for, the model that is built uses the requested backend, or the
default one; its equations are parsed to sympy exactly when the functions are made by `numba` or
`sympytensor`, and left as text exactly when they are made by `pytensor` or `jax`; the maker is the one
of the backend's name, except that `pytensor` in mode JAX (any case) uses jax if that is installed. -/
theorem C52_parsed_as_needed (backend mode : Option Str) (jaxFound : Bool) (eqs : List Str)
    (fns : CompileArg) (scan rk4 : Bool) (m : Built)
    (h : cgeModelBuild backend mode jaxFound eqs fns scan rk4 = .ok m) :
    m.backend = backend.getD (determineDefaultBackend eqs) ∧
    (m.parsed = true ↔ m.maker = .numba ∨ m.maker = .sympytensor) ∧
    (m.parsed = false ↔ m.maker = .pytensor ∨ m.maker = .jax) ∧
    (m.maker = .numba ↔ m.backend = "numba".toList) ∧
    (m.maker = .sympytensor ↔ m.backend = "sympytensor".toList) ∧
    (m.maker = .jax ↔ m.backend = "pytensor".toList ∧ jaxFound = true ∧
      ∃ s, mode = some s ∧ s.map Char.toUpper = "JAX".toList) ∧
    (m.maker = .pytensor ∨ m.maker = .jax ↔ m.backend = "pytensor".toList) := by
  obtain ⟨h1, h2, h3, -⟩ := cgeModelBuild_ok _ _ _ _ _ _ _ _ h
  have d1 : ("pytensor".toList : Str) ≠ "numba".toList := by decide +kernel
  have d2 : ("pytensor".toList : Str) ≠ "sympytensor".toList := by decide +kernel
  have d3 : ("numba".toList : Str) ≠ "sympytensor".toList := by decide +kernel
  have hc := chooseMaker_cases _ _ _ _ h2
  refine ⟨h1, ?_⟩
  have h3' : m.parsed = false ↔
      ¬ (m.backend = "numba".toList ∨ m.backend = "sympytensor".toList) := by
    rw [← h3]; cases m.parsed <;> simp
  rw [h3, h3']
  clear h h1 h2 h3 h3'
  generalize m.maker = mk at *
  generalize m.backend = b at *
  generalize "pytensor".toList = p at *
  generalize "numba".toList = n at *
  generalize "sympytensor".toList = s at *
  rcases hc with ⟨rfl, rfl, h⟩ | ⟨rfl, rfl, h⟩ | ⟨rfl, rfl⟩ | ⟨rfl, rfl⟩
  · simp [d1, d2, h.1]; exact h.2
  · simp [d1, d2]
    intro hj x hx hx'
    exact h ⟨hj, x, hx, hx'⟩
  · simp [d3, d1.symm]
  · simp [d3.symm, d2.symm]

example : cgeModelBuild (some "pytensor".toList) (some "JAX".toList) true [] (.atom (.str "all".toList))
    false false = .ok ⟨"pytensor".toList, false, .jax,
      ⟨true, true, true, true, true, true, true, false⟩,
      some [.str "root".toList, .str "minimize".toList, .str "euler".toList]⟩ := by rfl

/-- The names asked for: all three families for `"all"` and `True`, else the listed strings. -/
def Requests : CompileArg → Str → Prop
  | .none, _ => False
  | .atom a, f => a = .str f ∨ ((a = .str "all".toList ∨ a = .bool true) ∧
      f ∈ (["root".toList, "minimize".toList, "euler".toList] : List Str))
  | .list l, f => .str f ∈ l
  | .tuple l, f => .str f ∈ l

theorem requests_iff (fns : CompileArg) (f : Str) (hf : f ≠ "all".toList) :
    PyAtom.str f ∈ (parseCompileKwarg fns).getD [] ↔ Requests fns f := by
  cases fns with
  | none => simp [parseCompileKwarg, Requests]
  | list l => simp [parseCompileKwarg, Requests]
  | tuple l => simp [parseCompileKwarg, Requests]
  | atom a =>
    unfold parseCompileKwarg
    dsimp only
    by_cases h : a = .str "all".toList ∨ a = .bool true
    · rw [if_pos h]
      simp only [Option.getD_some, Requests, h, true_and, List.mem_cons, PyAtom.str.injEq,
        List.not_mem_nil, or_false]
      constructor
      · exact Or.inr
      · rintro (h' | h')
        · rcases h with h | h
          · rw [h'] at h
            exact absurd (PyAtom.str.inj h) hf
          · rw [h'] at h; cases h
        · exact h'
    · rw [if_neg h]
      simp only [Option.getD_some, Requests, List.mem_singleton, h, false_and, or_false]
      exact eq_comm

/-- **C52 (compiled functions).**  When the model is built, the system function is there in any case;
the Jacobian is there exactly if `root` is requested, the objective with gradient, Hessian and Hessian
product exactly if `minimize` is, the Euler function exactly if `euler` is. -/
theorem C52_compiles_requested (backend mode : Option Str) (jaxFound : Bool) (eqs : List Str)
    (fns : CompileArg) (scan rk4 : Bool) (m : Built)
    (h : cgeModelBuild backend mode jaxFound eqs fns scan rk4 = .ok m) :
    m.functions.system = true ∧
    (m.functions.jac = true ↔ Requests fns "root".toList) ∧
    (m.functions.resid = true ↔ Requests fns "minimize".toList) ∧
    (m.functions.grad = true ↔ Requests fns "minimize".toList) ∧
    (m.functions.hess = true ↔ Requests fns "minimize".toList) ∧
    (m.functions.hessp = true ↔ Requests fns "minimize".toList) ∧
    (m.functions.euler = true ↔ Requests fns "euler".toList) := by
  obtain ⟨-, -, -, h4⟩ := cgeModelBuild_ok _ _ _ _ _ _ _ _ h
  obtain ⟨hf, -⟩ := runMaker_ok _ _ _ _ _ h4
  have hmem : ∀ a, ((parseCompileKwarg fns).getD []).contains a = true ↔
      a ∈ (parseCompileKwarg fns).getD [] := fun a => List.contains_iff_mem
  rw [← requests_iff fns "root".toList (by decide +kernel),
    ← requests_iff fns "minimize".toList (by decide +kernel),
    ← requests_iff fns "euler".toList (by decide +kernel), hf]
  exact ⟨rfl, hmem _, hmem _, hmem _, hmem _, hmem _, hmem _⟩

/-- **C52 (everything).**  `"all"` and `True` request every family, `None` none. -/
theorem C52_all_and_none (f : Str)
    (hf : f ∈ (["root".toList, "minimize".toList, "euler".toList] : List Str)) :
    Requests (.atom (.str "all".toList)) f ∧ Requests (.atom (.bool true)) f ∧ ¬ Requests .none f :=
  ⟨Or.inr ⟨Or.inl rfl, hf⟩, Or.inr ⟨Or.inr rfl, hf⟩, fun h => h⟩

example : ∃ m, cgeModelBuild none none false ["x - a".toList] (.list [.str "root".toList]) false false =
    .ok m ∧ m.backend = "sympytensor".toList ∧ m.functions.jac = true ∧ m.functions.euler = false :=
  ⟨_, rfl, by rfl, by rfl, by rfl⟩

/-- **C52, `["all"]`.**  The declared type of the argument allows the word `all` and the word
`mininimze` inside a list; with either nothing but the system function is compiled. -/
theorem C52_list_all_counterexample (backend mode : Option Str) (jaxFound : Bool) (eqs : List Str)
    (scan rk4 : Bool) (m : Built)
    (h : cgeModelBuild backend mode jaxFound eqs (.list [.str "all".toList, .str "mininimze".toList])
      scan rk4 = .ok m) :
    m.functions = ⟨true, false, false, false, false, false, false, false⟩ := by
  have h7 := C52_compiles_requested _ _ _ _ _ _ _ _ h
  have hr : ∀ f, f ≠ "all".toList → f ≠ "mininimze".toList →
      ¬ Requests (.list [.str "all".toList, .str "mininimze".toList]) f := by
    intro f h1 h2 h3
    simp only [Requests, List.mem_cons, PyAtom.str.injEq, List.not_mem_nil, or_false] at h3
    rcases h3 with h3 | h3
    · exact h1 h3
    · exact h2 h3
  have r1 := hr "root".toList (by decide +kernel) (by decide +kernel)
  have r2 := hr "minimize".toList (by decide +kernel) (by decide +kernel)
  have r3 := hr "euler".toList (by decide +kernel) (by decide +kernel)
  have hrk : m.functions.eulerRk4 = true → m.functions.euler = true := by
    obtain ⟨-, -, -, h4⟩ := cgeModelBuild_ok _ _ _ _ _ _ _ _ h
    obtain ⟨hf, hr', -⟩ := runMaker_ok _ _ _ _ _ h4
    intro hx
    rw [hf]
    exact hr' hx
  obtain ⟨f1, f2, f3, f4, f5, f6, f7⟩ := h7
  have b : ∀ (x : Bool) (P : Prop), (x = true ↔ P) → ¬ P → x = false := by
    intro x P hx hP
    cases x
    · rfl
    · exact absurd (hx.1 rfl) hP
  have g7 := b _ _ f7 r3
  have g8 : m.functions.eulerRk4 = false := by
    cases hx : m.functions.eulerRk4
    · rfl
    · rw [hrk hx] at g7; cases g7
  cases hm : m.functions
  simp only [hm] at f1 f2 f3 f4 f5 f6 g7 g8
  rw [f1, b _ _ f2 r1, b _ _ f3 r2, b _ _ f4 r2, b _ _ f5 r2, b _ _ f6 r2, g7, g8]

example : ∃ m, cgeModelBuild (some "numba".toList) none false []
    (.list [.str "all".toList, .str "mininimze".toList]) false false = .ok m := ⟨_, rfl⟩

/-! ## C56 -/

/-- **C56 (Runge-Kutta steps), all makers but numba.**  When `use_rk4_euler` is set and `euler` is
requested, either the build raises or the Euler function takes Runge-Kutta steps. -/
theorem C56_rk4_partial (backend mode : Option Str) (jaxFound : Bool) (eqs : List Str)
    (fns : CompileArg) (scan : Bool) (m : Built)
    (h : cgeModelBuild backend mode jaxFound eqs fns scan true = .ok m)
    (he : Requests fns "euler".toList) (hn : m.backend ≠ "numba".toList) :
    m.functions.euler = true ∧ m.functions.eulerRk4 = true := by
  have he' := (C52_compiles_requested _ _ _ _ _ _ _ _ h).2.2.2.2.2.2.2 he
  obtain ⟨-, h2, -, h4⟩ := cgeModelBuild_ok _ _ _ _ _ _ _ _ h
  obtain ⟨hf, -, -, hr⟩ := runMaker_ok _ _ _ _ _ h4
  refine ⟨he', hr ?_ rfl ?_⟩
  · intro hmk
    exact hn ((C52_parsed_as_needed _ _ _ _ _ _ _ _ h).2.2.2.1.1 hmk)
  · rw [hf] at he'; exact he'

example : ∃ m, cgeModelBuild (some "pytensor".toList) (some "JAX".toList) true [] (.atom (.bool true))
    false true = .ok m ∧ m.backend ≠ "numba".toList := ⟨_, rfl, by decide +kernel⟩

/-- **C56, numba.**  With the numba backend the switch is accepted and ignored: whatever else is asked
for, the build succeeds and the Euler function takes plain steps. -/
theorem C56_numba_counterexample (mode : Option Str) (jaxFound : Bool) (eqs : List Str)
    (fns : CompileArg) (scan rk4 : Bool) :
    ∃ m, cgeModelBuild (some "numba".toList) mode jaxFound eqs fns scan rk4 = .ok m ∧
      m.functions.eulerRk4 = false ∧ (m.functions.euler = true ↔ Requests fns "euler".toList) := by
  have hb : ∃ m, cgeModelBuild (some "numba".toList) mode jaxFound eqs fns scan rk4 = .ok m ∧
      m.functions.eulerRk4 = false := by
    have hc : chooseMaker "numba".toList mode jaxFound = .ok .numba := by
      unfold chooseMaker
      rw [if_neg (fun h => absurd h.1 (by decide +kernel))]
      rfl
    unfold cgeModelBuild
    simp only [Option.getD_some, hc, bind, Except.bind, pure, Except.pure]
    exact ⟨_, rfl, Bool.and_false _⟩
  obtain ⟨m, hm, h⟩ := hb
  exact ⟨m, hm, h, (C52_compiles_requested _ _ _ _ _ _ _ _ hm).2.2.2.2.2.2⟩

/-- **C52 (scanned Euler).**  With the `pytensor` or the `sympytensor` functions, asking for the Euler
function in its `scan` form never gives a model: it is a `TypeError`. -/
theorem C52_scan_raises (backend mode : Option Str) (jaxFound : Bool) (eqs : List Str)
    (fns : CompileArg) (rk4 : Bool) (b : Str) (hb : b = backend.getD (determineDefaultBackend eqs))
    (hk : b = "sympytensor".toList ∨
      b = "pytensor".toList ∧ (jaxFound = false ∨
        ∀ s, mode = some s → s.map Char.toUpper ≠ "JAX".toList))
    (he : Requests fns "euler".toList) :
    cgeModelBuild backend mode jaxFound eqs fns true rk4 = .error .typeError := by
  have hne : ("sympytensor".toList : Str) ≠ "pytensor".toList := by decide +kernel
  obtain ⟨mk, hmk, hm⟩ : ∃ mk, chooseMaker b mode jaxFound = .ok mk ∧
      (mk = .pytensor ∨ mk = .sympytensor) := by
    unfold chooseMaker
    rcases hk with rfl | ⟨rfl, hj⟩
    · rw [if_neg (fun h => hne h.1)]
      exact ⟨.sympytensor, rfl, Or.inr rfl⟩
    · rw [if_neg]
      · exact ⟨.pytensor, rfl, Or.inl rfl⟩
      · rintro ⟨-, h1, h2⟩
        rcases hj with hj | hj
        · rw [hj] at h2; cases h2
        · cases mode with
          | none => cases h1
          | some s => exact hj s rfl (Option.some.inj h1)
  have hc : ((parseCompileKwarg fns).getD []).contains (.str "euler".toList) = true := by
    rw [List.contains_iff_mem, requests_iff _ _ (by decide +kernel)]
    exact he
  unfold cgeModelBuild
  simp only [bind, Except.bind]
  rw [← hb, hmk]
  dsimp only
  unfold runMaker
  dsimp only
  rw [hc]
  rcases hm with rfl | rfl <;> rfl

example : Requests (.list [.str "euler".toList]) "euler".toList := by
  simp [Requests]

end Verif

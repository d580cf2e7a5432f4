import Verif.Model.Ctor

/-!
# C58: parameters survive `get_params` and `clone`
-/

namespace BT
variable {A : Type}

theorem bindFrom_keys {args : List (CVal A)} {kw : Dict A} {i : Nat} {sig : Sig A} {env : Dict A}
    (h : bindFrom args kw i sig = .ok env) : env.map Prod.fst = sig.map Prod.fst := by
  induction sig generalizing i env with
  | nil =>
    rw [bindFrom] at h
    injection h with h
    rw [← h]; rfl
  | cons p sig ih =>
    rw [bindFrom] at h
    cases h1 : bindOne args kw i p with
    | error e => rw [h1] at h; cases h
    | ok v =>
      rw [h1] at h
      dsimp only at h
      cases h2 : bindFrom args kw (i + 1) sig with
      | error e => rw [h2] at h; cases h
      | ok e =>
        rw [h2] at h
        injection h with h
        subst h
        have hv : v.1 = p.1 := by
          unfold bindOne at h1
          split at h1
          · injection h1 with h1; rw [← h1]
          · injection h1 with h1; rw [← h1]
          · injection h1 with h1; rw [← h1]
          · cases h1
        rw [List.map_cons, List.map_cons, hv, ih h2]

theorem bindArgs_keys {args : List (CVal A)} {kw : Dict A} {sig : Sig A} {env : Dict A}
    (h : bindArgs sig args kw = .ok env) : env.map Prod.fst = sig.map Prod.fst := by
  unfold bindArgs at h
  split at h
  · cases h
  split at h
  · cases h
  split at h
  · cases h
  exact bindFrom_keys h

theorem baseTreeInit_nil (a b c d e f g h : CVal A) :
    baseTreeInit [] [a, b, c, d, e, f, g, h] =
    .ok [("partition_prior", a), ("prior", b), ("delta", c), ("prune", d), ("child_type", e),
      ("is_regression", f), ("split_precision", g), ("level", h)] := by
  simp [baseTreeInit, bindArgs, bindFrom, bindOne, assign, setattr, bind, Except.bind, List.lookup]

theorem baseTreeInit_again (a b c d e f g h a' b' c' d' e' f' g' h' : CVal A) (rest : Dict A) :
    baseTreeInit ([("partition_prior", a), ("prior", b), ("delta", c), ("prune", d), ("child_type", e),
      ("is_regression", f), ("split_precision", g), ("level", h)] ++ rest)
      [a', b', c', d', e', f', g', h'] =
    .ok ([("partition_prior", a'), ("prior", b'), ("delta", c'), ("prune", d'), ("child_type", e'),
      ("is_regression", f'), ("split_precision", g'), ("level", h')] ++ rest) := by
  simp [baseTreeInit, bindArgs, bindFrom, bindOne, assign, setattr, bind, Except.bind, List.lookup]

theorem basePerpInit_eq (a b c d e f g h : CVal A) :
    basePerpInit [] [a, b, c, d, e, f, g, h] =
    .ok [("partition_prior", a), ("prior", b), ("delta", c), ("prune", d), ("child_type", e),
      ("is_regression", f), ("split_precision", g), ("level", h)] := by
  simp [basePerpInit, bindArgs, bindFrom, bindOne, vars, bind, Except.bind, List.lookup, baseTreeInit_nil]

theorem baseHyperInit_eq (a b c d e f o g h : CVal A) :
    baseHyperInit [] [a, b, c, d, e, f, o, g, h] =
    .ok [("partition_prior", a), ("prior", b), ("delta", c), ("prune", d), ("child_type", e),
      ("is_regression", f), ("split_precision", g), ("level", h), ("optimizer", o)] := by
  simp [baseHyperInit, bindArgs, bindFrom, bindOne, vars, bind, Except.bind, List.lookup, baseTreeInit_nil,
    assign, setattr]

theorem baseTargetInit_eq (r : Bool) (a b c d e f g h a' b' c' d' e' g' h' : CVal A) (rest : Dict A) :
    baseTargetInit r ([("partition_prior", a), ("prior", b), ("delta", c), ("prune", d), ("child_type", e),
      ("is_regression", f), ("split_precision", g), ("level", h)] ++ rest)
      [a', b', c', d', e', g', h'] =
    .ok ([("partition_prior", a'), ("prior", b'), ("delta", c'), ("prune", d'), ("child_type", e'),
      ("is_regression", .bool r), ("split_precision", g'), ("level", h')] ++ rest) := by
  unfold baseTargetInit
  have := fun a b c d e f g h a' b' c' d' e' f' g' h' =>
    baseTreeInit_again (A := A) a b c d e f g h a' b' c' d' e' f' g' h' rest
  simp [bindArgs, bindFrom, bindOne, vars, bind, Except.bind, List.lookup] at this ⊢
  simp [this]

/-- The instance dictionary a constructor leaves. -/
theorem ctorBody_perp (c : Cls) (hc : c = .perpClassification ∨ c = .perpRegression)
    (pp prior delta prune prec level : CVal A) :
    ctorBody c [("partition_prior", pp), ("prior", prior), ("delta", delta), ("prune", prune),
      ("split_precision", prec), ("level", level)] =
    .ok [("partition_prior", pp), ("prior", prior), ("delta", delta), ("prune", prune),
      ("child_type", .cls c), ("is_regression", .bool (c = .perpRegression)), ("split_precision", prec),
      ("level", level)] := by
  rcases hc with rfl | rfl
  · have := fun a b c d e f g h a' b' c' d' e' g' h' =>
      baseTargetInit_eq (A := A) false a b c d e f g h a' b' c' d' e' g' h' []
    simp only [List.append_nil] at this
    simp [ctorBody, vars, bind, Except.bind, List.lookup, basePerpInit_eq, this]
  · have := fun a b c d e f g h a' b' c' d' e' g' h' =>
      baseTargetInit_eq (A := A) true a b c d e f g h a' b' c' d' e' g' h' []
    simp only [List.append_nil] at this
    simp [ctorBody, vars, bind, Except.bind, List.lookup, basePerpInit_eq, this]

theorem ctorBody_hyper (c : Cls) (hc : c = .hyperClassification ∨ c = .hyperRegression)
    (pp prior delta prune opt prec level : CVal A) :
    ctorBody c [("partition_prior", pp), ("prior", prior), ("delta", delta), ("prune", prune),
      ("optimizer", opt), ("split_precision", prec), ("level", level)] =
    .ok [("partition_prior", pp), ("prior", prior), ("delta", delta), ("prune", prune),
      ("child_type", .cls c), ("is_regression", .bool (c = .hyperRegression)), ("split_precision", prec),
      ("level", level), ("optimizer", opt)] := by
  rcases hc with rfl | rfl
  · have := fun a b c d e f g h a' b' c' d' e' g' h' =>
      baseTargetInit_eq (A := A) false a b c d e f g h a' b' c' d' e' g' h' [("optimizer", opt)]
    simp only [List.cons_append, List.nil_append] at this
    simp [ctorBody, vars, bind, Except.bind, List.lookup, baseHyperInit_eq, this]
  · have := fun a b c d e f g h a' b' c' d' e' g' h' =>
      baseTargetInit_eq (A := A) true a b c d e f g h a' b' c' d' e' g' h' [("optimizer", opt)]
    simp only [List.cons_append, List.nil_append] at this
    simp [ctorBody, vars, bind, Except.bind, List.lookup, baseHyperInit_eq, this]

theorem env_six {env : Dict A} {a b c d e f : String} (h : env.map Prod.fst = [a, b, c, d, e, f]) :
    ∃ va vb vc vd ve vf, env = [(a, va), (b, vb), (c, vc), (d, vd), (e, ve), (f, vf)] := by
  match env, h with
  | [(_, va), (_, vb), (_, vc), (_, vd), (_, ve), (_, vf)], h =>
    simp only [List.map_cons, List.map_nil, List.cons.injEq, and_true] at h
    obtain ⟨rfl, rfl, rfl, rfl, rfl, rfl⟩ := h
    exact ⟨va, vb, vc, vd, ve, vf, rfl⟩

theorem env_seven {env : Dict A} {a b c d e f g : String}
    (h : env.map Prod.fst = [a, b, c, d, e, f, g]) :
    ∃ va vb vc vd ve vf vg,
      env = [(a, va), (b, vb), (c, vc), (d, vd), (e, ve), (f, vf), (g, vg)] := by
  match env, h with
  | [(_, va), (_, vb), (_, vc), (_, vd), (_, ve), (_, vf), (_, vg)], h =>
    simp only [List.map_cons, List.map_nil, List.cons.injEq, and_true] at h
    obtain ⟨rfl, rfl, rfl, rfl, rfl, rfl, rfl⟩ := h
    exact ⟨va, vb, vc, vd, ve, vf, vg, rfl⟩

/-- The parameters a call binds, whatever mixture of positional and keyword arguments it uses, are what
`get_params` of the new object returns; the class attributes are those of the class. -/
theorem C58_get (c : Cls) (args : List (CVal A)) (kw env : Dict A)
    (h : bindArgs (ctorSig c) args kw = .ok env) :
    ∃ self, construct c args kw = .ok self ∧ getParams c self = .ok env ∧
      self.lookup "child_type" = some (.cls c) ∧
      self.lookup "is_regression" = some (.bool (c = .perpRegression ∨ c = .hyperRegression)) := by
  have hk := bindArgs_keys h
  unfold construct
  rw [h]
  dsimp only
  cases c with
  | perpClassification =>
    obtain ⟨va, vb, vc, vd, ve, vf, rfl⟩ := env_six hk
    rw [ctorBody_perp _ (.inl rfl)]
    refine ⟨_, rfl, ?_⟩
    simp [getParams, ctorSig, getattrs, List.lookup]
  | hyperClassification =>
    obtain ⟨va, vb, vc, vd, ve, vf, vg, rfl⟩ := env_seven hk
    rw [ctorBody_hyper _ (.inl rfl)]
    refine ⟨_, rfl, ?_⟩
    simp [getParams, ctorSig, getattrs, List.lookup]
  | perpRegression =>
    obtain ⟨va, vb, vc, vd, ve, vf, rfl⟩ := env_six hk
    rw [ctorBody_perp _ (.inr rfl)]
    refine ⟨_, rfl, ?_⟩
    simp [getParams, ctorSig, getattrs, List.lookup]
  | hyperRegression =>
    obtain ⟨va, vb, vc, vd, ve, vf, vg, rfl⟩ := env_seven hk
    rw [ctorBody_hyper _ (.inr rfl)]
    refine ⟨_, rfl, ?_⟩
    simp [getParams, ctorSig, getattrs, List.lookup]

/-- A call with one keyword argument per parameter binds them. -/
theorem bindArgs_keywords (c : Cls) (params : Dict A)
    (hk : params.map Prod.fst = (ctorSig (A := A) c).map Prod.fst) :
    bindArgs (ctorSig c) [] params = .ok params := by
  cases c with
  | perpClassification =>
    obtain ⟨va, vb, vc, vd, ve, vf, rfl⟩ := env_six hk
    simp [bindArgs, bindFrom, bindOne, ctorSig, List.lookup]
  | hyperClassification =>
    obtain ⟨va, vb, vc, vd, ve, vf, vg, rfl⟩ := env_seven hk
    simp [bindArgs, bindFrom, bindOne, ctorSig, List.lookup]
  | perpRegression =>
    obtain ⟨va, vb, vc, vd, ve, vf, rfl⟩ := env_six hk
    simp [bindArgs, bindFrom, bindOne, ctorSig, List.lookup]
  | hyperRegression =>
    obtain ⟨va, vb, vc, vd, ve, vf, vg, rfl⟩ := env_seven hk
    simp [bindArgs, bindFrom, bindOne, ctorSig, List.lookup]

theorem getattrs_keys {self d : Dict A} {names : List String} (h : getattrs self names = .ok d) :
    d.map Prod.fst = names := by
  induction names generalizing d with
  | nil => rw [getattrs] at h; injection h with h; rw [← h]; rfl
  | cons n names ih =>
    rw [getattrs] at h
    cases h1 : self.lookup n with
    | none => rw [h1] at h; cases h
    | some v =>
      rw [h1] at h
      dsimp only at h
      cases h2 : getattrs self names with
      | error e => rw [h2] at h; cases h
      | ok e =>
        rw [h2] at h
        injection h with h
        rw [← h, List.map_cons, ih h2]

/-- C58: constructing from the values `get_params` reports gives an object with the same parameters, for
every object that has them – also one whose attributes have been changed, or one with further attributes
such as those of a fit. -/
theorem C58_roundtrip (c : Cls) (self params : Dict A) (h : getParams c self = .ok params) :
    ∃ new, construct c [] params = .ok new ∧ getParams c new = .ok params := by
  obtain ⟨new, h1, h2, -⟩ := C58_get c [] params params (bindArgs_keywords c params (getattrs_keys h))
  exact ⟨new, h1, h2⟩

/-- An object as constructed is reproduced with all its attributes. -/
theorem C58_construct (c : Cls) (args : List (CVal A)) (kw self : Dict A)
    (h : construct c args kw = .ok self) :
    ∃ params, getParams c self = .ok params ∧ construct c [] params = .ok self := by
  unfold construct at h
  cases hb : bindArgs (ctorSig c) args kw with
  | error e => rw [hb] at h; cases h
  | ok env =>
    obtain ⟨self', h1, h2, -⟩ := C58_get c args kw env hb
    have h1' := h1
    unfold construct at h1'
    rw [hb] at h h1'
    dsimp only at h h1'
    have : self' = self := by rw [h1'] at h; injection h
    subst this
    refine ⟨env, h2, ?_⟩
    unfold construct
    rw [bindArgs_keywords c env (bindArgs_keys hb)]
    exact h1'

/-- `clone` succeeds and its result has the copied parameters, whatever `copy` does to them. -/
theorem C58_clone [DecidableEq A] (copy : CVal A → CVal A) (c : Cls) (self params : Dict A)
    (h : getParams c self = .ok params) :
    ∃ new, clone copy c self = .ok new ∧
      getParams c new = .ok (params.map fun p => (p.1, copy p.2)) := by
  have hk : (params.map fun p => (p.1, copy p.2)).map Prod.fst = (ctorSig (A := A) c).map Prod.fst := by
    rw [← getattrs_keys h, List.map_map]
    rfl
  obtain ⟨new, h1, h2, -⟩ := C58_get c [] _ _ (bindArgs_keywords c _ hk)
  refine ⟨new, ?_, h2⟩
  unfold clone
  rw [h]
  dsimp only
  rw [h1]
  dsimp only
  rw [h2]
  simp

/-- The positional call with which `_fit` creates a child gives each argument to the parameter it is
meant for. -/
theorem C58_child (c : Cls) (pp prior delta prune opt prec level : CVal A) :
    ∃ self, construct c (childArgs c pp prior delta prune opt prec level) [] = .ok self ∧
      self.lookup "partition_prior" = some pp ∧ self.lookup "prior" = some prior ∧
      self.lookup "delta" = some delta ∧ self.lookup "prune" = some prune ∧
      self.lookup "split_precision" = some prec ∧ self.lookup "level" = some level ∧
      self.lookup "child_type" = some (.cls c) ∧
      (c = .hyperClassification ∨ c = .hyperRegression → self.lookup "optimizer" = some opt) := by
  cases c with
  | perpClassification =>
    refine ⟨[("partition_prior", pp), ("prior", prior), ("delta", delta), ("prune", prune),
      ("child_type", .cls .perpClassification), ("is_regression", .bool false), ("split_precision", prec),
      ("level", level)], ?_, ?_⟩
    · have := ctorBody_perp .perpClassification (.inl rfl) pp prior delta prune prec level
      simp [construct, childArgs, bindArgs, bindFrom, bindOne, ctorSig, List.lookup, this]
    · simp [List.lookup]
  | hyperClassification =>
    refine ⟨[("partition_prior", pp), ("prior", prior), ("delta", delta), ("prune", prune),
      ("child_type", .cls .hyperClassification), ("is_regression", .bool false), ("split_precision", prec),
      ("level", level), ("optimizer", opt)], ?_, ?_⟩
    · have := ctorBody_hyper .hyperClassification (.inl rfl) pp prior delta prune opt prec level
      simp [construct, childArgs, bindArgs, bindFrom, bindOne, ctorSig, List.lookup, this]
    · simp [List.lookup]
  | perpRegression =>
    refine ⟨[("partition_prior", pp), ("prior", prior), ("delta", delta), ("prune", prune),
      ("child_type", .cls .perpRegression), ("is_regression", .bool true), ("split_precision", prec),
      ("level", level)], ?_, ?_⟩
    · have := ctorBody_perp .perpRegression (.inr rfl) pp prior delta prune prec level
      simp [construct, childArgs, bindArgs, bindFrom, bindOne, ctorSig, List.lookup, this]
    · simp [List.lookup]
  | hyperRegression =>
    refine ⟨[("partition_prior", pp), ("prior", prior), ("delta", delta), ("prune", prune),
      ("child_type", .cls .hyperRegression), ("is_regression", .bool true), ("split_precision", prec),
      ("level", level), ("optimizer", opt)], ?_, ?_⟩
    · have := ctorBody_hyper .hyperRegression (.inr rfl) pp prior delta prune opt prec level
      simp [construct, childArgs, bindArgs, bindFrom, bindOne, ctorSig, List.lookup, this]
    · simp [List.lookup]

/-- The default values given in the class documentation (classification.py:146-158, 216-241,
regression.py:155-158, 236-251). -/
def documented (A : Type) : Dict A :=
  [("delta", .float 0), ("prune", .bool false), ("split_precision", .float 0)]

/-- Python's `==` between a number and a documented default (`0 == 0.0`). -/
def pyEq [DecidableEq A] (v w : CVal A) : Bool :=
  match v, w with
  | .int z, .float q => (z : ℚ) = q
  | v, w => v = w

/-- The instance dictionary of `Class()`. -/
theorem construct_default_perp (c : Cls) (hc : c = .perpClassification ∨ c = .perpRegression) :
    construct (A := A) c [] [] = .ok [("partition_prior", .float (99 / 100)), ("prior", .none),
      ("delta", .int 0), ("prune", .bool false), ("child_type", .cls c),
      ("is_regression", .bool (c = .perpRegression)), ("split_precision", .float 0),
      ("level", .int 0)] := by
  rw [← ctorBody_perp c hc]
  rcases hc with rfl | rfl <;> simp [construct, ctorSig, bindArgs, bindFrom, bindOne]

theorem construct_default_hyper (c : Cls) (hc : c = .hyperClassification ∨ c = .hyperRegression) :
    construct (A := A) c [] [] = .ok [("partition_prior", .float (99 / 100)), ("prior", .none),
      ("delta", if c = .hyperClassification then .none else .int 0), ("prune", .bool false),
      ("child_type", .cls c), ("is_regression", .bool (c = .hyperRegression)),
      ("split_precision", .float 0), ("level", .int 0), ("optimizer", .none)] := by
  rw [← ctorBody_hyper c hc]
  rcases hc with rfl | rfl <;> simp [construct, ctorSig, bindArgs, bindFrom, bindOne]

/-- C68, the part that holds: the defaults of three of the four classes, and all defaults but that of
`delta` in the remaining one, are those documented. -/
theorem C68_defaults_partial [DecidableEq A] (c : Cls) (name : String) (v : CVal A)
    (hv : (name, v) ∈ documented A) (h : c ≠ .hyperClassification ∨ name ≠ "delta") :
    ∃ self w, construct (A := A) c [] [] = .ok self ∧ self.lookup name = some w ∧ pyEq w v = true := by
  simp only [documented, List.mem_cons, Prod.mk.injEq, List.not_mem_nil, or_false] at hv
  have key : ∀ self : Dict A, construct (A := A) c [] [] = .ok self →
      (∃ w, self.lookup name = some w ∧ pyEq w v = true) →
      ∃ self w, construct (A := A) c [] [] = .ok self ∧ self.lookup name = some w ∧ pyEq w v = true := by
    rintro self h1 ⟨w, h2, h3⟩
    exact ⟨self, w, h1, h2, h3⟩
  cases c with
  | perpClassification =>
    refine key _ (construct_default_perp _ (.inl rfl)) ?_
    rcases hv with ⟨rfl, rfl⟩ | ⟨rfl, rfl⟩ | ⟨rfl, rfl⟩ <;> simp [List.lookup, pyEq]
  | hyperClassification =>
    refine key _ (construct_default_hyper _ (.inl rfl)) ?_
    rcases hv with ⟨rfl, rfl⟩ | ⟨rfl, rfl⟩ | ⟨rfl, rfl⟩
    · simp at h
    · simp [List.lookup, pyEq]
    · simp [List.lookup, pyEq]
  | perpRegression =>
    refine key _ (construct_default_perp _ (.inr rfl)) ?_
    rcases hv with ⟨rfl, rfl⟩ | ⟨rfl, rfl⟩ | ⟨rfl, rfl⟩ <;> simp [List.lookup, pyEq]
  | hyperRegression =>
    refine key _ (construct_default_hyper _ (.inr rfl)) ?_
    rcases hv with ⟨rfl, rfl⟩ | ⟨rfl, rfl⟩ | ⟨rfl, rfl⟩ <;> simp [List.lookup, pyEq]

/-- C68 is false: `HyperplaneClassificationTree()` has `delta = None`, the documentation says 0.0. -/
theorem C68_refuted [DecidableEq A] : ¬ ∀ (c : Cls) (name : String) (v : CVal A), (name, v) ∈ documented A →
    ∃ self w, construct (A := A) c [] [] = .ok self ∧ self.lookup name = some w ∧ pyEq w v = true := by
  intro hall
  obtain ⟨self, w, h1, h2, h3⟩ := hall .hyperClassification "delta" (.float 0) (by simp [documented])
  rw [construct_default_hyper _ (.inl rfl)] at h1
  injection h1 with h1
  subst h1
  simp [List.lookup] at h2
  subst h2
  simp [pyEq] at h3

/-- The hypotheses hold for `HyperplaneClassificationTree(0.9, delta=0.5, level=2)`. -/
example : bindArgs (A := Unit) (ctorSig .hyperClassification) [.float (9 / 10)]
    [("delta", .float (1 / 2)), ("level", .int 2)] =
    .ok [("partition_prior", .float (9 / 10)), ("prior", .none), ("delta", .float (1 / 2)),
      ("prune", .bool false), ("optimizer", .none), ("split_precision", .float 0), ("level", .int 2)] := by
  simp [bindArgs, bindFrom, bindOne, ctorSig, List.lookup]

/-- A parameter given twice or an unknown keyword is rejected. -/
example : bindArgs (A := Unit) (ctorSig .perpRegression) [.float (9 / 10)]
      [("partition_prior", .float (1 / 2))] = .error .typeError ∧
    bindArgs (A := Unit) (ctorSig .perpRegression) [] [("optimizer", .none)] = .error .typeError := by
  simp [bindArgs, ctorSig]

end BT

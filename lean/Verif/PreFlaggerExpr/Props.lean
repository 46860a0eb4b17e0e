import Verif.PreFlaggerExpr.Spec

/-!
C20, C21, C59.
-/

namespace DP3.PreFlaggerExpr

/-! ### Expressions of the grammar are accepted and evaluated as formulas -/

private theorem steps_append (ts us : List Tok) (st : State) :
    steps (ts ++ us) st = (steps ts st).bind (steps us) := by
  induction ts generalizing st with
  | nil => rfl
  | cons t ts ih =>
    simp only [List.cons_append, steps]
    cases h : step st t with
    | none => rfl
    | some st1 => simp only [Option.bind_some]; exact ih st1

/-- The operator of a level. -/
private def lcode : Level → Int
  | .or => -2
  | .and => -3
  | .not => -4

private def Fits (l : Level) (stack : List Oper) : Prop := ∀ t ∈ stack.head?, lcode l ≤ t.code

private theorem pushOper_pop (o : Oper) (P S : List Oper) (rpn : List Item)
    (hP : ∀ t ∈ P, t.code < o.code) (hS : ∀ t ∈ S.head?, o.code ≤ t.code) :
    pushOper o (P ++ S) rpn = (o :: S, rpn ++ P.map .op) := by
  induction P generalizing rpn with
  | nil =>
    cases S with
    | nil => simp [pushOper]
    | cons t S =>
      have := hS t (by simp)
      simp only [List.nil_append, pushOper]
      rw [if_neg (by omega)]
      simp
  | cons t P ih =>
    simp only [List.cons_append, pushOper]
    rw [if_pos (hP t (by simp)), ih _ (fun u hu => hP u (by simp [hu]))]
    simp

private theorem popParen_pop (P S : List Oper) (rpn : List Item) (hP : ∀ t ∈ P, t.code ≤ -2) :
    popParen (P ++ .paren :: S) rpn = some (S, rpn ++ P.map .op) := by
  induction P generalizing rpn with
  | nil => simp [popParen]
  | cons t P ih =>
    have ht := hP t (by simp)
    have h2 := ih (rpn ++ [.op t]) (fun u hu => hP u (by simp [hu]))
    cases t with
    | paren => simp [Oper.code] at ht
    | or => simp only [List.cons_append, popParen]; rw [h2]; simp
    | and => simp only [List.cons_append, popParen]; rw [h2]; simp
    | not => simp only [List.cons_append, popParen]; rw [h2]; simp

private theorem drain_all (P : List Oper) (rpn : List Item) (hP : ∀ t ∈ P, t.code ≤ -2) :
    drain P rpn = some (rpn ++ P.map .op) := by
  induction P generalizing rpn with
  | nil => simp [drain]
  | cons t P ih =>
    have ht := hP t (by simp)
    simp only [drain]
    rw [if_neg (by simp only [Oper.code] at ht ⊢; omega), ih _ (fun u hu => hP u (by simp [hu]))]
    simp

/-- `r` pushes the value of `f` for all continuations. -/
private def Pushes (pre ns : List String) (r : List Item) (f : Formula) : Prop :=
  ∀ (ext : List String) (env : String → Bool) (rest : List Item) (stk : List Bool),
    evalRpn (pre ++ ns ++ ext) env (r ++ rest) stk
      = evalRpn (pre ++ ns ++ ext) env rest (f.eval env :: stk)

private theorem sound {l : Level} {ts : List Tok} {f : Formula} (h : Parses l ts f) :
    ∀ (S : List Oper) (rpn : List Item) (names : List String), Fits l S →
      ∃ (P : List Oper) (r : List Item) (ns : List String),
        steps ts ⟨S, rpn, names, false⟩ = some ⟨P ++ S, rpn ++ r, names ++ ns, true⟩ ∧
        (∀ t ∈ P, t.code ≤ lcode l) ∧ Pushes names ns (r ++ P.map .op) f := by
  induction h with
  | name s =>
    intro S rpn names _
    refine ⟨[], [.set names.length], [s], by simp [steps, step], by simp, ?_⟩
    intro ext env rest stk
    simp [evalRpn, Formula.eval]
  | @paren ts f _ ih =>
    intro S rpn names _
    obtain ⟨P, r, ns, h1, h2, h3⟩ := ih (.paren :: S) rpn names (by
      intro t ht; simp at ht; subst ht; simp [lcode, Oper.code])
    refine ⟨[], r ++ P.map .op, ns, ?_, by simp, by simpa using h3⟩
    rw [List.cons_append, steps]
    simp only [step, Bool.false_eq_true, if_false, Option.bind_some]
    rw [steps_append, h1]
    simp only [Option.bind_some, steps, step, Bool.not_true, Bool.false_eq_true, if_false]
    rw [popParen_pop P S _ (fun t ht => by have := h2 t ht; simpa [lcode] using this)]
    simp
  | @not ts f _ ih =>
    intro S rpn names _
    obtain ⟨P, r, ns, h1, h2, h3⟩ := ih (.not :: S) rpn names (by
      intro t ht; simp at ht; subst ht; simp [lcode, Oper.code])
    refine ⟨P ++ [.not], r, ns, ?_, ?_, ?_⟩
    · rw [steps]
      simp only [step, Bool.false_eq_true, if_false, Option.bind_some]
      have := pushOper_pop .not [] S rpn (by simp) (by intro t _; cases t <;> simp [Oper.code])
      simp only [List.nil_append, List.map_nil, List.append_nil] at this
      rw [this, h1]
      simp
    · intro t ht
      rcases List.mem_append.mp ht with h | h
      · exact h2 t h
      · simp at h; subst h; simp [lcode, Oper.code]
    · intro ext env rest stk
      have := h3 ext env (.op .not :: rest) stk
      simp only [List.map_append, List.map_cons, List.map_nil, List.append_assoc, List.cons_append,
        List.nil_append] at this ⊢
      rw [this]
      simp [evalRpn, Formula.eval]
  | @and1 ts f _ ih =>
    intro S rpn names _
    obtain ⟨P, r, ns, h1, h2, h3⟩ := ih S rpn names (by
      intro t _; cases t <;> simp [lcode, Oper.code])
    exact ⟨P, r, ns, h1, fun t ht => by have := h2 t ht; simp only [lcode] at this ⊢; omega, h3⟩
  | @and2 ts us f g _ _ ih1 ih2 =>
    intro S rpn names hf
    obtain ⟨P, r, ns, h1, h2, h3⟩ := ih1 S rpn names (by
      intro t _; cases t <;> simp [lcode, Oper.code])
    obtain ⟨Q, r', ns', g1, g2, g3⟩ := ih2 (.and :: S) (rpn ++ r ++ P.map .op) (names ++ ns) (by
      intro t ht; simp at ht; subst ht; simp [lcode, Oper.code])
    refine ⟨Q ++ [.and], r ++ P.map .op ++ r', ns ++ ns', ?_, ?_, ?_⟩
    · rw [steps_append, h1]
      simp only [Option.bind_some, steps, step, Bool.not_true, Bool.false_eq_true, if_false]
      rw [pushOper_pop .and P S _
        (fun t ht => by have := h2 t ht; cases t <;> simp_all [lcode, Oper.code]) hf]
      rw [g1]
      simp
    · intro t ht
      rcases List.mem_append.mp ht with h | h
      · exact g2 t h
      · simp at h; subst h; simp [lcode, Oper.code]
    · intro ext env rest stk
      have e1 := h3 (ns' ++ ext) env (r' ++ Q.map .op ++ (.op .and :: rest)) stk
      have e2 := g3 ext env (.op .and :: rest) (f.eval env :: stk)
      simp only [List.map_append, List.map_cons, List.map_nil, List.append_assoc, List.cons_append,
        List.nil_append] at e1 e2 ⊢
      rw [e1, e2]
      simp [evalRpn, Formula.eval]
  | @or1 ts f _ ih =>
    intro S rpn names hf
    obtain ⟨P, r, ns, h1, h2, h3⟩ := ih S rpn names (fun t ht => by
      have := hf t ht; simp only [lcode] at this ⊢; omega)
    exact ⟨P, r, ns, h1, fun t ht => by have := h2 t ht; simp only [lcode] at this ⊢; omega, h3⟩
  | @or2 ts us f g _ _ ih1 ih2 =>
    intro S rpn names hf
    obtain ⟨P, r, ns, h1, h2, h3⟩ := ih1 S rpn names (fun t ht => by
      have := hf t ht; simp only [lcode] at this ⊢; omega)
    obtain ⟨Q, r', ns', g1, g2, g3⟩ := ih2 (.or :: S) (rpn ++ r ++ P.map .op) (names ++ ns) (by
      intro t ht; simp at ht; subst ht; simp [lcode, Oper.code])
    refine ⟨Q ++ [.or], r ++ P.map .op ++ r', ns ++ ns', ?_, ?_, ?_⟩
    · rw [steps_append, h1]
      simp only [Option.bind_some, steps, step, Bool.not_true, Bool.false_eq_true, if_false]
      rw [pushOper_pop .or P S _
        (fun t ht => by have := h2 t ht; cases t <;> simp_all [lcode, Oper.code]) hf]
      rw [g1]
      simp
    · intro t ht
      rcases List.mem_append.mp ht with h | h
      · exact g2 t h
      · simp at h; subst h; simp [lcode, Oper.code]
    · intro ext env rest stk
      have e1 := h3 (ns' ++ ext) env (r' ++ Q.map .op ++ (.op .or :: rest)) stk
      have e2 := g3 ext env (.op .or :: rest) (f.eval env :: stk)
      simp only [List.map_append, List.map_cons, List.map_nil, List.append_assoc, List.cons_append,
        List.nil_append] at e1 e2 ⊢
      rw [e1, e2]
      simp [evalRpn, Formula.eval]

/-- C20: an expression is accepted, and evaluated for each visibility to the value of
the formula it denotes when NOT binds strongest, then AND, then OR. -/
theorem parse_eval {ts : List Tok} {f : Formula} (h : Parses .or ts f) :
    ∃ r, parse ts = some r ∧ ∀ env, evaluate r env = some (f.eval env) := by
  obtain ⟨P, r, ns, h1, h2, h3⟩ := sound h [] [] [] (by intro t ht; simp at ht)
  refine ⟨(r ++ P.map .op, ns), ?_, ?_⟩
  · simp only [parse]
    rw [h1]
    simp only [List.append_nil, List.nil_append, Option.bind_some, Bool.not_true,
      Bool.false_eq_true, if_false]
    rw [drain_all P r (fun t ht => by have := h2 t ht; simpa [lcode] using this)]
    rfl
  · intro env
    have := h3 [] env [] []
    simp only [List.nil_append, List.append_nil, evalRpn] at this
    simp only [evaluate]
    rw [this]

/-- `a | !b & (c | d)` is `a | ((!b) & (c | d))`. -/
example : ∃ r, parse [.name "a", .or, .not, .name "b", .and, .open, .name "c", .or, .name "d", .close]
      = some r ∧
    ∀ env, evaluate r env = some (env "a" || (!env "b" && (env "c" || env "d"))) :=
  parse_eval (f := .or (.leaf "a") (.and (.not (.leaf "b")) (.or (.leaf "c") (.leaf "d"))))
    (.or2 (ts := [_]) (.and1 (.name _))
      (.or1 (.and2 (ts := [_, _]) (.not (.name _))
        (.and1 (.paren (ts := [_, _, _]) (.or2 (ts := [_]) (.and1 (.name _)) (.or1 (.and1 (.name _)))))))))

/-! ### Accepted expressions belong to the grammar -/

/-- `Ctx S pre`: the tokens `pre` lead to the operator stack `S`, with the operands left
of the operators on the stack. -/
private inductive Ctx : List Oper → List Tok → Prop
  | nil : Ctx [] []
  | paren {S pre} : Ctx S pre → Ctx (.paren :: S) (pre ++ [.open])
  | not {S pre} : Ctx S pre → Ctx (.not :: S) (pre ++ [.not])
  | and {S pre ts f} : Ctx S pre → Fits .and S → Parses .not ts f →
      Ctx (.and :: S) (pre ++ ts ++ [.and])
  | or {S pre ts f} : Ctx S pre → Fits .or S → Parses .and ts f →
      Ctx (.or :: S) (pre ++ ts ++ [.or])

private theorem fits_cons {l : Level} {t : Oper} {S : List Oper} :
    Fits l (t :: S) ↔ lcode l ≤ t.code := by
  simp [Fits]

private theorem push_and : ∀ (S : List Oper) (pre ts : List Tok) (f : Formula) (rpn : List Item),
    Ctx S pre → Parses .not ts f →
    Ctx (pushOper .and S rpn).1 (pre ++ ts ++ [.and]) := by
  intro S
  induction S with
  | nil =>
    intro pre ts f rpn hc hp
    simp only [pushOper]
    exact .and hc (by intro t ht; simp at ht) hp
  | cons t S ih =>
    intro pre ts f rpn hc hp
    simp only [pushOper]
    by_cases ht : t.code < Oper.and.code
    · rw [if_pos ht]
      cases hc with
      | paren => simp [Oper.code] at ht
      | or => simp [Oper.code] at ht
      | and => simp [Oper.code] at ht
      | @not _ pre' hc' =>
        have := ih pre' (.not :: ts) (.not f) (rpn ++ [.op .not]) hc' (.not hp)
        simpa using this
    · rw [if_neg ht]
      exact .and hc (by rw [fits_cons]; simp only [lcode, Oper.code] at *; omega) hp

private theorem push_or_and : ∀ (S : List Oper) (pre ts : List Tok) (f : Formula) (rpn : List Item),
    Ctx S pre → Fits .and S → Parses .and ts f →
    Ctx (pushOper .or S rpn).1 (pre ++ ts ++ [.or]) := by
  intro S
  induction S with
  | nil =>
    intro pre ts f rpn hc _ hp
    simp only [pushOper]
    exact .or hc (by intro t ht; simp at ht) hp
  | cons t S ih =>
    intro pre ts f rpn hc hf hp
    rw [fits_cons] at hf
    simp only [pushOper]
    by_cases ht : t.code < Oper.or.code
    · rw [if_pos ht]
      cases hc with
      | paren => simp [Oper.code] at ht
      | or => simp [Oper.code] at ht
      | not => simp [lcode, Oper.code] at hf
      | @and _ pre' us g hc' hf' hp' =>
        have := ih pre' (us ++ .and :: ts) (.and g f) (rpn ++ [.op .and]) hc' hf' (.and2 hp' hp)
        simpa using this
    · rw [if_neg ht]
      exact .or hc (by rw [fits_cons]; simp only [lcode, Oper.code] at *; omega) hp

private theorem push_or : ∀ (S : List Oper) (pre ts : List Tok) (f : Formula) (rpn : List Item),
    Ctx S pre → Parses .not ts f →
    Ctx (pushOper .or S rpn).1 (pre ++ ts ++ [.or]) := by
  intro S
  induction S with
  | nil =>
    intro pre ts f rpn hc hp
    exact push_or_and [] pre ts f rpn hc (by intro t ht; simp at ht) (.and1 hp)
  | cons t S ih =>
    intro pre ts f rpn hc hp
    by_cases ht : t = .not
    · subst ht
      simp only [pushOper]
      rw [if_pos (by simp [Oper.code])]
      cases hc with
      | @not _ pre' hc' =>
        have := ih pre' (.not :: ts) (.not f) (rpn ++ [.op .not]) hc' (.not hp)
        simpa using this
    · refine push_or_and (t :: S) pre ts f rpn hc ?_ (.and1 hp)
      rw [fits_cons]
      cases t <;> simp_all [lcode, Oper.code]

private theorem close_or : ∀ (S : List Oper) (pre ts : List Tok) (f : Formula) (rpn : List Item)
    (r : List Oper × List Item), Ctx S pre → Fits .or S → Parses .or ts f →
    popParen S rpn = some r →
    ∃ pre' us g, pre ++ ts ++ [.close] = pre' ++ us ∧ Ctx r.1 pre' ∧ Parses .not us g := by
  intro S
  induction S with
  | nil => intro pre ts f rpn r _ _ _ h; simp [popParen] at h
  | cons t S ih =>
    intro pre ts f rpn r hc hf hp h
    rw [fits_cons] at hf
    cases hc with
    | @paren _ pre' hc' =>
      simp only [popParen, Option.some.injEq] at h
      subst h
      exact ⟨pre', .open :: ts ++ [.close], f, by simp, hc', .paren hp⟩
    | not => simp [lcode, Oper.code] at hf
    | and => simp [lcode, Oper.code] at hf
    | @or _ pre' us g hc' hf' hp' =>
      simp only [popParen] at h
      obtain ⟨p, vs, k, h1, h2, h3⟩ := ih pre' (us ++ .or :: ts) (.or g f) _ r hc' hf' (.or2 hp' hp) h
      exact ⟨p, vs, k, by rw [← h1]; simp, h2, h3⟩

private theorem close_and : ∀ (S : List Oper) (pre ts : List Tok) (f : Formula) (rpn : List Item)
    (r : List Oper × List Item), Ctx S pre → Fits .and S → Parses .and ts f →
    popParen S rpn = some r →
    ∃ pre' us g, pre ++ ts ++ [.close] = pre' ++ us ∧ Ctx r.1 pre' ∧ Parses .not us g := by
  intro S
  induction S with
  | nil => intro pre ts f rpn r _ _ _ h; simp [popParen] at h
  | cons t S ih =>
    intro pre ts f rpn r hc hf hp h
    by_cases ht : t = .and
    · subst ht
      cases hc with
      | @and _ pre' us g hc' hf' hp' =>
        simp only [popParen] at h
        obtain ⟨p, vs, k, h1, h2, h3⟩ :=
          ih pre' (us ++ .and :: ts) (.and g f) _ r hc' hf' (.and2 hp' hp) h
        exact ⟨p, vs, k, by rw [← h1]; simp, h2, h3⟩
    · refine close_or (t :: S) pre ts f rpn r hc ?_ (.or1 hp) h
      rw [fits_cons] at hf ⊢
      cases t <;> simp_all [lcode, Oper.code]

private theorem close_not : ∀ (S : List Oper) (pre ts : List Tok) (f : Formula) (rpn : List Item)
    (r : List Oper × List Item), Ctx S pre → Parses .not ts f →
    popParen S rpn = some r →
    ∃ pre' us g, pre ++ ts ++ [.close] = pre' ++ us ∧ Ctx r.1 pre' ∧ Parses .not us g := by
  intro S
  induction S with
  | nil => intro pre ts f rpn r _ _ h; simp [popParen] at h
  | cons t S ih =>
    intro pre ts f rpn r hc hp h
    by_cases ht : t = .not
    · subst ht
      cases hc with
      | @not _ pre' hc' =>
        simp only [popParen] at h
        obtain ⟨p, vs, k, h1, h2, h3⟩ := ih pre' (.not :: ts) (.not f) _ r hc' (.not hp) h
        exact ⟨p, vs, k, by rw [← h1]; simp, h2, h3⟩
    · refine close_and (t :: S) pre ts f rpn r hc ?_ (.and1 hp) h
      rw [fits_cons]
      cases t <;> simp_all [lcode, Oper.code]

private theorem end_or : ∀ (S : List Oper) (pre ts : List Tok) (f : Formula) (rpn r : List Item),
    Ctx S pre → Fits .or S → Parses .or ts f → drain S rpn = some r →
    ∃ g, Parses .or (pre ++ ts) g := by
  intro S
  induction S with
  | nil => intro pre ts f rpn r hc _ hp _; cases hc; exact ⟨f, hp⟩
  | cons t S ih =>
    intro pre ts f rpn r hc hf hp h
    rw [fits_cons] at hf
    cases hc with
    | paren => simp [drain] at h
    | not => simp [lcode, Oper.code] at hf
    | and => simp [lcode, Oper.code] at hf
    | @or _ pre' us g hc' hf' hp' =>
      simp only [drain] at h
      rw [if_neg (by simp [Oper.code])] at h
      obtain ⟨k, hk⟩ := ih pre' (us ++ .or :: ts) (.or g f) _ r hc' hf' (.or2 hp' hp) h
      exact ⟨k, by simpa using hk⟩

private theorem end_and : ∀ (S : List Oper) (pre ts : List Tok) (f : Formula) (rpn r : List Item),
    Ctx S pre → Fits .and S → Parses .and ts f → drain S rpn = some r →
    ∃ g, Parses .or (pre ++ ts) g := by
  intro S
  induction S with
  | nil =>
    intro pre ts f rpn r hc hf hp h
    exact end_or [] pre ts f rpn r hc (by intro t ht; simp at ht) (.or1 hp) h
  | cons t S ih =>
    intro pre ts f rpn r hc hf hp h
    by_cases ht : t = .and
    · subst ht
      cases hc with
      | @and _ pre' us g hc' hf' hp' =>
        simp only [drain] at h
        rw [if_neg (by simp [Oper.code])] at h
        obtain ⟨k, hk⟩ := ih pre' (us ++ .and :: ts) (.and g f) _ r hc' hf' (.and2 hp' hp) h
        exact ⟨k, by simpa using hk⟩
    · refine end_or (t :: S) pre ts f rpn r hc ?_ (.or1 hp) h
      rw [fits_cons] at hf ⊢
      cases t <;> simp_all [lcode, Oper.code]

private theorem end_not : ∀ (S : List Oper) (pre ts : List Tok) (f : Formula) (rpn r : List Item),
    Ctx S pre → Parses .not ts f → drain S rpn = some r →
    ∃ g, Parses .or (pre ++ ts) g := by
  intro S
  induction S with
  | nil =>
    intro pre ts f rpn r hc hp h
    exact end_and [] pre ts f rpn r hc (by intro t ht; simp at ht) (.and1 hp) h
  | cons t S ih =>
    intro pre ts f rpn r hc hp h
    by_cases ht : t = .not
    · subst ht
      cases hc with
      | @not _ pre' hc' =>
        simp only [drain] at h
        rw [if_neg (by simp [Oper.code])] at h
        obtain ⟨k, hk⟩ := ih pre' (.not :: ts) (.not f) _ r hc' (.not hp) h
        exact ⟨k, by simpa using hk⟩
    · refine end_and (t :: S) pre ts f rpn r hc ?_ (.and1 hp) h
      rw [fits_cons]
      cases t <;> simp_all [lcode, Oper.code]

/-- What the tokens read so far look like. -/
private def Reached (st : State) (pre : List Tok) : Prop :=
  if st.hadName then ∃ p ts f, pre = p ++ ts ∧ Ctx st.stack p ∧ Parses .not ts f
  else Ctx st.stack pre

private theorem step_reached {st st' : State} {pre : List Tok} {t : Tok} (h : Reached st pre)
    (hs : step st t = some st') : Reached st' (pre ++ [t]) := by
  obtain ⟨S, rpn, names, had⟩ := st
  cases had with
  | false =>
    simp only [Reached, Bool.false_eq_true, if_false] at h
    cases t with
    | «open» =>
      simp [step] at hs
      subst hs
      simp only [Reached, Bool.false_eq_true, if_false]
      exact .paren h
    | close => simp [step] at hs
    | or => simp [step] at hs
    | and => simp [step] at hs
    | name s =>
      simp [step] at hs
      subst hs
      simp only [Reached, if_true]
      exact ⟨pre, [.name s], .leaf s, rfl, h, .name s⟩
    | not =>
      simp only [step, Bool.false_eq_true, if_false, Option.some.injEq] at hs
      subst hs
      simp only [Reached, Bool.false_eq_true, if_false]
      have := pushOper_pop .not [] S rpn (by simp) (by intro t _; cases t <;> simp [Oper.code])
      simp only [List.nil_append] at this
      rw [this]
      exact .not h
  | true =>
    simp only [Reached, if_true] at h
    obtain ⟨p, ts, f, rfl, hc, hp⟩ := h
    cases t with
    | «open» => simp [step] at hs
    | name s => simp [step] at hs
    | not => simp [step] at hs
    | close =>
      simp only [step, Bool.not_true, Bool.false_eq_true, if_false, Option.map_eq_some_iff] at hs
      obtain ⟨r, hr, rfl⟩ := hs
      obtain ⟨p', us, g, h1, h2, h3⟩ := close_not S p ts f rpn r hc hp hr
      simp only [Reached, if_true]
      exact ⟨p', us, g, h1, h2, h3⟩
    | or =>
      simp only [step, Bool.not_true, Bool.false_eq_true, if_false, Option.some.injEq] at hs
      subst hs
      simp only [Reached, Bool.false_eq_true, if_false]
      exact push_or S p ts f rpn hc hp
    | and =>
      simp only [step, Bool.not_true, Bool.false_eq_true, if_false, Option.some.injEq] at hs
      subst hs
      simp only [Reached, Bool.false_eq_true, if_false]
      exact push_and S p ts f rpn hc hp

private theorem steps_reached : ∀ (ts : List Tok) (st st' : State) (pre : List Tok),
    Reached st pre → steps ts st = some st' → Reached st' (pre ++ ts) := by
  intro ts
  induction ts with
  | nil => intro st st' pre h hs; simp [steps] at hs; subst hs; simpa using h
  | cons t ts ih =>
    intro st st' pre h hs
    simp only [steps, Option.bind_eq_some_iff] at hs
    obtain ⟨st1, h1, h2⟩ := hs
    have := ih st1 st' (pre ++ [t]) (step_reached h h1) h2
    simpa using this

/-- C21: the parser accepts exactly the token sequences of the grammar. -/
theorem parse_accepts (ts : List Tok) : (parse ts).isSome ↔ ∃ f, Parses .or ts f := by
  constructor
  · intro h
    obtain ⟨r, hr⟩ := Option.isSome_iff_exists.mp h
    simp only [parse, Option.bind_eq_some_iff] at hr
    obtain ⟨st, h1, h2⟩ := hr
    have hreach := steps_reached ts _ st [] (by simp only [Reached]; exact .nil) h1
    cases hn : st.hadName with
    | false => simp [hn] at h2
    | true =>
      simp only [hn, Bool.not_true, Bool.false_eq_true, if_false, Option.map_eq_some_iff] at h2
      obtain ⟨rpn, h3, _⟩ := h2
      simp only [Reached, hn, if_true, List.nil_append] at hreach
      obtain ⟨p, us, f, rfl, hc, hp⟩ := hreach
      exact end_not st.stack p us f st.rpn rpn hc hp h3
  · rintro ⟨f, hf⟩
    obtain ⟨r, hr, _⟩ := parse_eval hf
    rw [hr]; rfl

/-- C21: evaluating an accepted expression never uses an empty stack or a set that does
not exist, and ends with one result. -/
theorem accepted_evaluates (ts : List Tok) (r : List Item × List String) (h : parse ts = some r)
    (env : String → Bool) : (evaluate r env).isSome := by
  obtain ⟨f, hf⟩ := (parse_accepts ts).mp (by rw [h]; rfl)
  obtain ⟨r', hr', he⟩ := parse_eval hf
  rw [h] at hr'
  obtain rfl := Option.some.inj hr'
  rw [he env]; rfl

/-- An accepted and a rejected sequence. -/
example : (parse [.not, .open, .name "a", .and, .name "b", .close]).isSome = true ∧
    (parse [.name "a", .not, .name "b"]).isSome = false ∧
    (parse [.open, .name "a"]).isSome = false := by decide

/-! ### Scanning -/

private theorem startsWord_blank {word w : List Char} {bang : Bool} {b : Char} {cs : List Char}
    (hb : isBlank b = true) (hw : w.map Char.toUpper = word) :
    startsWord word bang (w ++ b :: cs) = true := by
  have hl : word.length = w.length := by rw [← hw]; simp
  simp [startsWord, hl, hw, hb]

private theorem blank_iff {c : Char} : isBlank c = true ↔ c = ' ' ∨ c = '\t' := by
  simp [isBlank]

private theorem lex_ge : ∀ (fuel : Nat) (cs : List Char), cs.length ≤ fuel →
    lex fuel cs = lex cs.length cs := by
  intro fuel cs
  induction hn : cs.length using Nat.strongRecOn generalizing fuel cs with
  | ind n ih =>
    intro hle
    cases cs with
    | nil => simp [lex]
    | cons c cs =>
      obtain ⟨fuel, rfl⟩ : ∃ f, fuel = f + 1 := ⟨fuel - 1, by simp at hn; omega⟩
      obtain ⟨n, rfl⟩ : ∃ m, n = m + 1 := ⟨n - 1, by simp at hn; omega⟩
      simp only [List.length_cons, Nat.add_right_cancel_iff] at hn
      have key : ∀ ds : List Char, ds.length ≤ n → lex fuel ds = lex n ds := by
        intro ds hd
        rw [ih ds.length (by omega) fuel ds rfl (by omega), ih ds.length (by omega) n ds rfl hd]
      have hskip : ∀ ch, (skipOne ch cs).length ≤ n := by
        intro ch
        simp only [skipOne]
        split
        · simp; omega
        · omega
      have hdrop : ∀ k, (cs.drop k).length ≤ n := by intro k; simp; omega
      by_cases hblank : isBlank c = true
      · simp only [lex, hblank, if_true]
        exact key cs (by omega)
      have hid : isIdentifier ((c :: cs).takeWhile fun d => !endsName d) = true →
          ((c :: cs).dropWhile fun d => !endsName d).length ≤ n := by
        intro h
        have : endsName c = false := by
          cases he : endsName c with
          | false => rfl
          | true => simp [he, isIdentifier] at h
        rw [List.dropWhile_cons_of_pos (by simp [this])]
        have := (List.dropWhile_sublist (fun d => !endsName d) (l := cs)).length_le
        omega
      simp only [lex]
      rw [key cs (by omega), key _ (hskip _), key _ (hskip _), key _ (hdrop 1), key _ (hdrop 2)]
      by_cases h : isIdentifier ((c :: cs).takeWhile fun d => !endsName d) = true
      · rw [key _ (hid h)]
      · simp only [h, Bool.false_eq_true, if_false]

private theorem char_upper_facts {c : Char} (h : c.isAlpha = true ∨ c = '_' ∨ c.isAlphanum = true) :
    isBlank c = false ∧ c ≠ '(' ∧ c ≠ ')' ∧ c ≠ '|' ∧ c ≠ ',' ∧ c ≠ '&' ∧ c ≠ '!' := by
  have h2 : c.isAlphanum = true ∨ c = '_' := by
    rcases h with h | h | h
    · left; simp [Char.isAlphanum, h]
    · right; exact h
    · left; exact h
  refine ⟨?_, ?_, ?_, ?_, ?_, ?_, ?_⟩
  · cases hb : isBlank c with
    | false => rfl
    | true =>
      rcases blank_iff.mp hb with rfl | rfl <;> revert h2 <;> decide
  all_goals
    rintro rfl
    revert h2
    decide

private theorem toUpper_symbol {c d : Char} (hd : d.isAlpha = true) (h : c.toUpper = d) :
    c.isAlpha = true := by
  by_cases hl : c.isLower = true
  · simp [Char.isAlpha, hl]
  · have : c.toUpper = c := by
      simp only [Char.isLower] at hl
      unfold Char.toUpper
      simp only [Bool.and_eq_true, decide_eq_true_eq] at hl
      rw [dif_neg]
      intro hc
      exact hl hc
    rw [this] at h
    rw [h]; exact hd

private theorem lex_blank {b : Char} {cs : List Char} {r : Option (List Tok)} {fuel : Nat}
    (hb : isBlank b = true) (hf : cs.length < fuel) (h : lex cs.length cs = r) :
    lex fuel (b :: cs) = r := by
  obtain ⟨fuel, rfl⟩ : ∃ f, fuel = f + 1 := ⟨fuel - 1, by omega⟩
  simp only [lex, hb, if_true]
  rw [lex_ge fuel cs (by omega), h]

private theorem startsWord_symbol {d : Char} {word : List Char} {bang : Bool} {c : Char}
    {cs : List Char} (hd : d.isAlpha = true) (hc : c.isAlpha = false) :
    startsWord (d :: word) bang (c :: cs) = false := by
  have : c.toUpper ≠ d := fun h => by rw [toUpper_symbol hd h] at hc; simp at hc
  simp [startsWord, this]

private theorem startsWord_name {word w : List Char} {bang : Bool} {b : Char} {cs : List Char}
    (hid : ∀ c ∈ w, endsName c = false) (hne : w.map Char.toUpper ≠ word) (hb : isBlank b = true)
    (hword : ∀ c ∈ word, c.isAlpha = true) :
    startsWord word bang (w ++ b :: cs) = false := by
  cases h : startsWord word bang (w ++ b :: cs) with
  | false => rfl
  | true =>
    exfalso
    simp only [startsWord, Bool.and_eq_true, beq_iff_eq] at h
    obtain ⟨h1, h2⟩ := h
    rcases Nat.lt_trichotomy word.length w.length with hl | hl | hl
    · rw [List.drop_append_of_le_length (by omega), List.drop_eq_getElem_cons hl] at h2
      have := hid (w[word.length]) (List.getElem_mem _)
      simp only [endsName, Bool.or_eq_false_iff, beq_eq_false_iff_ne] at this
      simp only [List.cons_append, Bool.or_eq_true, beq_iff_eq, Bool.and_eq_true] at h2
      rcases h2 with (h2 | h2) | h2
      · rw [this.1.1.1.1.1.1] at h2; simp at h2
      · exact this.1.1.1.1.1.2 h2
      · exact this.1.1.1.2 h2.2
    · rw [hl, List.take_left'] at h1
      · exact hne h1
      · rfl
    · have hmem : b.toUpper ∈ word := by
        rw [← h1]
        refine List.mem_map.mpr ⟨b, ?_, rfl⟩
        rw [List.take_append]
        refine List.mem_append.mpr (.inr ?_)
        obtain ⟨k, hk⟩ : ∃ k, word.length - w.length = k + 1 := ⟨word.length - w.length - 1, by omega⟩
        rw [hk]; simp
      have := toUpper_symbol (hword _ hmem) rfl
      rcases blank_iff.mp hb with rfl | rfl <;> revert this <;> decide

private theorem lex_word {t : Tok} {w : List Char} (hw : Spelled t w) {b : Char} {cs : List Char}
    {fuel : Nat} (hb : isBlank b = true) (hf : (w ++ b :: cs).length ≤ fuel) :
    lex fuel (w ++ b :: cs) = (lex cs.length cs).map (t :: ·) := by
  have hbl : ∀ {f : Nat}, cs.length < f → lex f (b :: cs) = lex cs.length cs :=
    fun hf => lex_blank hb hf rfl
  have hb1 : skipOne '|' (b :: cs) = b :: cs := by
    rcases blank_iff.mp hb with rfl | rfl <;> simp [skipOne]
  have hb2 : skipOne '&' (b :: cs) = b :: cs := by
    rcases blank_iff.mp hb with rfl | rfl <;> simp [skipOne]
  have hwo : ∀ {d : Char} {word : List Char} {bang : Bool} {c : Char} {ds : List Char},
      d.isAlpha = true → c.isAlpha = false → startsWord (d :: word) bang (c :: ds) = false :=
    fun h1 h2 => startsWord_symbol h1 h2
  obtain ⟨fuel, rfl⟩ : ∃ f, fuel = f + 1 := ⟨fuel - 1, by simp at hf; omega⟩
  simp only [List.length_append, List.length_cons] at hf
  cases hw with
  | «open» => simp only [List.cons_append, List.nil_append, lex]; rw [hbl (by simp at hf; omega)]; simp [isBlank]
  | close =>
    simp only [List.cons_append, List.nil_append, lex]
    rw [hbl (by simp at hf; omega), hwo (by decide) (by decide), hwo (by decide) (by decide),
      hwo (by decide) (by decide)]
    simp [isBlank]
  | bar =>
    simp only [List.cons_append, List.nil_append, lex]
    rw [hb1, hbl (by simp at hf; omega)]; simp [isBlank]
  | bar2 =>
    simp only [List.cons_append, List.nil_append, lex]
    rw [show skipOne '|' ('|' :: b :: cs) = b :: cs by simp [skipOne]]
    have := hbl (f := fuel) (by simp at hf; omega)
    simp [isBlank, this]
  | comma =>
    simp only [List.cons_append, List.nil_append, lex]
    rw [hbl (by simp at hf; omega)]; simp [isBlank]
  | amp =>
    simp only [List.cons_append, List.nil_append, lex]
    rw [hb2, hbl (by simp at hf; omega)]; simp [isBlank]
  | amp2 =>
    simp only [List.cons_append, List.nil_append, lex]
    rw [show skipOne '&' ('&' :: b :: cs) = b :: cs by simp [skipOne]]
    have := hbl (f := fuel) (by simp at hf; omega)
    simp [isBlank, this]
  | bang =>
    simp only [List.cons_append, List.nil_append, lex]
    rw [hbl (by simp at hf; omega)]; simp [isBlank]
  | orWord h =>
    have hs := startsWord_blank (bang := true) (cs := cs) hb h
    have hl : w.length = 2 := by have := congrArg List.length h; simpa using this
    match w, hl with
    | [c, d], _ =>
      simp only [List.map_cons, List.map_nil, List.cons.injEq, and_true] at h
      have hc := char_upper_facts (.inl (toUpper_symbol (d := 'O') (by decide) h.1))
      simp only [List.cons_append, List.nil_append] at hs ⊢
      simp only [lex, hs, List.drop_succ_cons, List.drop_zero]
      rw [hbl (by simp at hf; omega)]
      simp [hc]
  | andWord h =>
    have hs := startsWord_blank (bang := true) (cs := cs) hb h
    have hl : w.length = 3 := by have := congrArg List.length h; simpa using this
    match w, hl with
    | [c, d, e], _ =>
      simp only [List.map_cons, List.map_nil, List.cons.injEq, and_true] at h
      have hc := char_upper_facts (.inl (toUpper_symbol (d := 'A') (by decide) h.1))
      simp only [List.cons_append, List.nil_append] at hs ⊢
      have ho : startsWord ['O', 'R'] true (c :: d :: e :: b :: cs) = false := by
        simp [startsWord, h.1]
      simp only [lex, hs, ho, List.drop_succ_cons, List.drop_zero]
      rw [hbl (by simp at hf; omega)]
      simp [hc]
  | notWord h =>
    have hs := startsWord_blank (bang := false) (cs := cs) hb h
    have hl : w.length = 3 := by have := congrArg List.length h; simpa using this
    match w, hl with
    | [c, d, e], _ =>
      simp only [List.map_cons, List.map_nil, List.cons.injEq, and_true] at h
      have hc := char_upper_facts (.inl (toUpper_symbol (d := 'N') (by decide) h.1))
      simp only [List.cons_append, List.nil_append] at hs ⊢
      have ho : startsWord ['O', 'R'] true (c :: d :: e :: b :: cs) = false := by
        simp [startsWord, h.1]
      have ha : startsWord ['A', 'N', 'D'] true (c :: d :: e :: b :: cs) = false := by
        simp [startsWord, h.1]
      simp only [lex, hs, ho, ha, List.drop_succ_cons, List.drop_zero]
      rw [hbl (by simp at hf; omega)]
      simp [hc]
  | name hid h1 h2 h3 =>
    have hchar : ∀ c ∈ w, c.isAlpha = true ∨ c = '_' ∨ c.isAlphanum = true := by
      cases w with
      | nil => simp
      | cons c w =>
        simp only [isIdentifier, Bool.and_eq_true, Bool.or_eq_true, beq_iff_eq, List.all_eq_true] at hid
        intro d hd
        rcases List.mem_cons.mp hd with rfl | hd
        · rcases hid.1 with h | h
          · exact .inl h
          · exact .inr (.inl h)
        · rcases hid.2 d hd with h | h
          · exact .inr (.inr h)
          · exact .inr (.inl h)
    have hends : ∀ c ∈ w, endsName c = false := by
      intro c hc
      have := char_upper_facts (hchar c hc)
      simp [endsName, this]
    have hbe : endsName b = true := by simp [endsName, hb]
    have htake : (w ++ b :: cs).takeWhile (fun d => !endsName d) = w := by
      rw [List.takeWhile_append_of_pos (by intro c hc; simp [hends c hc])]
      simp [hbe]
    have hdrop : (w ++ b :: cs).dropWhile (fun d => !endsName d) = b :: cs := by
      rw [List.dropWhile_append_of_pos (by intro c hc; simp [hends c hc])]
      simp [hbe]
    have s1 := startsWord_name (bang := true) (cs := cs) hends h1 hb (by decide)
    have s2 := startsWord_name (bang := true) (cs := cs) hends h2 hb (by decide)
    have s3 := startsWord_name (bang := false) (cs := cs) hends h3 hb (by decide)
    cases w with
    | nil => simp [isIdentifier] at hid
    | cons c w =>
      have hc := char_upper_facts (hchar c (by simp))
      simp only [List.cons_append] at *
      simp only [lex, htake, hdrop, s1, s2, s3, hid]
      rw [hbl (by simp at hf; omega)]
      simp [hc]

/-- C59: an expression written with a blank after each operator, parenthesis and name is
scanned to these tokens, whatever spelling is used for the operators. -/
theorem lex_written {ts : List Tok} {cs : List Char} (h : Written ts cs) :
    lex cs.length cs = some ts := by
  induction h with
  | nil => simp [lex]
  | cons hw hb _ ih => rw [lex_word hw hb (Nat.le_refl _), ih]; rfl

/-- C59: so the spelling of the operators does not matter. -/
theorem expr_spelling {ts : List Tok} {s t : String} (hs : Written ts s.toList)
    (ht : Written ts t.toList) : exprToRpn s = exprToRpn t := by
  simp only [exprToRpn]
  rw [lex_written hs, lex_written ht]

/-- C20: the text of an expression is evaluated as the formula. -/
theorem expr_eval {ts : List Tok} {f : Formula} {s : String} (hs : Written ts s.toList)
    (h : Parses .or ts f) :
    ∃ r, exprToRpn s = some r ∧ ∀ env, evaluate r env = some (f.eval env) := by
  simp only [exprToRpn]
  rw [lex_written hs]
  exact parse_eval h

/-- `s1 Or not s2 ` and `s1 | ! s2 ` are the same. -/
example : exprToRpn "s1 Or not s2 " = exprToRpn "s1 | ! s2 " :=
  expr_spelling (ts := [.name "s1", .or, .not, .name "s2"])
    (.cons (w := ['s', '1']) (.name (by decide) (by decide) (by decide) (by decide)) rfl
      (.cons (w := ['O', 'r']) (.orWord (by decide)) rfl
        (.cons (w := ['n', 'o', 't']) (.notWord (by decide)) rfl
          (.cons (w := ['s', '2']) (.name (by decide) (by decide) (by decide) (by decide)) rfl .nil))))
    (.cons (w := ['s', '1']) (.name (by decide) (by decide) (by decide) (by decide)) rfl
      (.cons (w := ['|']) .bar rfl
        (.cons (w := ['!']) .bang rfl
          (.cons (w := ['s', '2']) (.name (by decide) (by decide) (by decide) (by decide)) rfl .nil))))

end DP3.PreFlaggerExpr

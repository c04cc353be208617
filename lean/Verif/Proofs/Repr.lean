import Verif.Spec.Repr
set_option linter.unusedSimpArgs false
/-
Reading a call with keyword arguments back.
-/
namespace Records

def Pos.up (p : Pos) (n : Nat) : Pos := ⟨p.depth + n, p.quote⟩

theorem splitTop_ne (p : Pos) (t : List Char) : splitTop p t ≠ [] := by
  cases t with
  | nil => simp [splitTop]
  | cons c cs =>
    unfold splitTop
    split
    · simp
    · split <;> simp

theorem splitTop_append {p : Pos} {t : List Char} (h : ClosesFrom p t) (rest : List Char) {x : List Char} {xs : List (List Char)}
    (hr : splitTop .top rest = x :: xs) : splitTop p (t ++ rest) = (t ++ x) :: xs := by
  induction t generalizing p with
  | nil => cases h; exact hr
  | cons c cs ih =>
    obtain ⟨h1, h2⟩ := h
    show splitTop p (c :: (cs ++ rest)) = _
    unfold splitTop
    rw [if_neg (fun hc => h1 ⟨hc.1, .inl hc.2⟩), ih h2]
    rfl

theorem closesFrom_append {p : Pos} {t u : List Char} (h : ClosesFrom p t) (hu : ClosesFrom .top u) : ClosesFrom p (t ++ u) := by
  induction t generalizing p with
  | nil => cases h; exact hu
  | cons c cs ih => exact ⟨h.1, ih h.2⟩

theorem step_plain {c : Char} (h : c ∉ quoteChars ∧ c ∉ openers ∧ c ∉ closers ∧ c ∉ [',', '=', ' ']) (d : Nat) :
    Pos.step ⟨d, none⟩ c = ⟨d, none⟩ := by
  unfold Pos.step
  simp only [if_neg h.1, if_neg h.2.1, if_neg h.2.2.1]

theorem closesFrom_plain {t : List Char} (h : ∀ c ∈ t, c ∉ quoteChars ∧ c ∉ openers ∧ c ∉ closers ∧ c ∉ [',', '=', ' ']) :
    ClosesFrom .top t := by
  induction t with
  | nil => rfl
  | cons c cs ih =>
    have hc := h c (by simp)
    refine ⟨fun hx => hx.2.elim (fun e => hc.2.2.2 (by simp [e])) hc.2.2.1, ?_⟩
    have e : Pos.step .top c = .top := step_plain hc 0
    rw [e]
    exact ih fun c hc => h c (by simp [hc])

theorem closesFrom_eq : ClosesFrom .top ['='] := ⟨by decide, by decide⟩
theorem closesFrom_blank : ClosesFrom .top [' '] := ⟨by decide, by decide⟩

/-- the text of one argument -/
def argText (kv : String × String) : List Char := kv.1.toList ++ '=' :: kv.2.toList

structure GoodArg (kv : String × String) : Prop where
  name : PlainName kv.1
  value : OneArg kv.2

theorem GoodArg.closes {kv : String × String} (h : GoodArg kv) : ClosesFrom .top (argText kv) := by
  have e : argText kv = kv.1.toList ++ ['='] ++ kv.2.toList := by simp [argText]
  rw [e]
  exact closesFrom_append (closesFrom_append (closesFrom_plain h.name) closesFrom_eq) h.value

theorem dropWhile_name {p : Char → Bool} {t : List Char} (h : ∀ c ∈ t, p c = true) {c : Char} (hc : p c = false) (u : List Char) :
    (t ++ c :: u).dropWhile p = c :: u ∧ (t ++ c :: u).takeWhile p = t := by
  induction t with
  | nil => simp [List.dropWhile, List.takeWhile, hc]
  | cons a t ih =>
    have ha := h a (by simp)
    have := ih fun c hc => h c (by simp [hc])
    simp [List.dropWhile, List.takeWhile, ha, this]

theorem readArg_text {kv : String × String} (h : PlainName kv.1) : readArg (argText kv) = some kv := by
  have hb : (argText kv).dropWhile (· = ' ') = argText kv := by
    unfold argText
    cases e : kv.1.toList with
    | nil => simp [List.dropWhile]
    | cons c cs =>
      have := (h c (by rw [e]; simp)).2.2.2
      have hn : c ≠ ' ' := fun e => this (by simp [e])
      simp [List.dropWhile, hn]
  have hk : ∀ c ∈ kv.1.toList, decide (c ≠ '=') = true := by
    intro c hc
    have := (h c hc).2.2.2
    exact decide_eq_true fun e => this (by simp [e])
  obtain ⟨h1, h2⟩ := dropWhile_name hk (c := '=') (by decide) kv.2.toList
  unfold readArg
  simp only [hb]
  unfold argText
  rw [h1, h2]
  simp

theorem readArg_blank {t : List Char} : readArg (' ' :: t) = readArg t := by
  unfold readArg
  simp only [List.dropWhile]
  simp

/-- the arguments, separated by commas and blanks -/
def argsText : List (String × String) → List Char
  | [] => []
  | [kv] => argText kv
  | kv :: l => argText kv ++ ',' :: ' ' :: argsText l

theorem argsText_cons (kv kv' : String × String) (l : List (String × String)) :
    argsText (kv :: kv' :: l) = argText kv ++ ',' :: ' ' :: argsText (kv' :: l) := rfl

theorem argsText_intercalate (l : List (String × String)) :
    (", ".intercalate (l.map fun kv => kv.1 ++ "=" ++ kv.2)).toList = argsText l := by
  rw [String.toList_intercalate]
  induction l with
  | nil => rfl
  | cons kv l ih =>
    cases l with
    | nil => simp [argsText, argText, List.intercalate]
    | cons kv' l =>
      rw [argsText_cons, ← ih]
      simp [List.intercalate, argText, List.intersperse]

theorem read_args (kv : String × String) (l : List (String × String)) (h : ∀ a ∈ kv :: l, GoodArg a) (pre : List Char)
    (hp : pre = [] ∨ pre = [' ']) : (splitTop .top (pre ++ argsText (kv :: l))).mapM readArg = some (kv :: l) := by
  have hpre : ClosesFrom .top pre := by
    rcases hp with rfl | rfl
    · rfl
    · exact closesFrom_blank
  have hread : ∀ t, readArg (pre ++ t) = readArg t := by
    rcases hp with rfl | rfl
    · intro t; rfl
    · intro t; exact readArg_blank
  induction l generalizing kv pre with
  | nil =>
    have := splitTop_append (closesFrom_append hpre (h kv (by simp)).closes) [] (x := []) (xs := []) (by simp [splitTop])
    simp only [List.append_nil] at this
    show (splitTop .top (pre ++ argText kv)).mapM readArg = _
    rw [this]
    simp [hread, readArg_text (h kv (by simp)).name]
  | cons kv' l ih =>
    have ih' := ih kv' (fun a ha => h a (List.mem_cons_of_mem _ ha)) [' '] (.inr rfl) closesFrom_blank (fun t => readArg_blank)
    have e : splitTop .top (',' :: ([' '] ++ argsText (kv' :: l))) = [] :: splitTop .top ([' '] ++ argsText (kv' :: l)) := by
      rw [splitTop, if_pos ⟨rfl, rfl⟩]
    have := splitTop_append (closesFrom_append hpre (h kv (by simp)).closes) _ e
    have e2 : pre ++ argsText (kv :: kv' :: l) = pre ++ argText kv ++ (',' :: ([' '] ++ argsText (kv' :: l))) := by
      rw [argsText_cons]; simp
    rw [e2, this]
    simp only [List.append_nil, List.mapM_cons, hread, readArg_text (h kv (by simp)).name, ih']
    rfl

/-- the text of a call -/
def callText (name : String) (l : List (String × String)) : String :=
  name ++ "(" ++ ", ".intercalate (l.map fun kv => kv.1 ++ "=" ++ kv.2) ++ ")"

theorem callText_toList (name : String) (l : List (String × String)) :
    (callText name l).toList = name.toList ++ '(' :: (argsText l ++ [')']) := by
  unfold callText
  simp only [String.toList_append, argsText_intercalate]
  simp

theorem argsText_ne (kv : String × String) (l : List (String × String)) : argsText (kv :: l) ≠ [] := by
  cases l with
  | nil => unfold argsText argText; simp
  | cons kv' l => rw [argsText_cons]; simp

theorem readCall_text {name : String} (hn : PlainName name) {l : List (String × String)} (h : ∀ a ∈ l, GoodArg a) :
    readCall (callText name l) = some (name, l) := by
  have hk : ∀ c ∈ name.toList, decide (c ≠ '(') = true := by
    intro c hc
    have := (hn c hc).2.1
    exact decide_eq_true fun e => this (by simp [e, openers])
  obtain ⟨h1, h2⟩ := dropWhile_name hk (c := '(') (by decide) (argsText l ++ [')'])
  unfold readCall
  simp only [callText_toList]
  rw [h1, h2]
  simp only [List.getLast?_append, List.getLast?_singleton, Option.some_or, ne_eq, not_true_eq_false, if_false,
    List.dropLast_concat, String.ofList_toList]
  cases l with
  | nil => rfl
  | cons kv l =>
    rw [if_neg (argsText_ne kv l)]
    have := read_args kv l h [] (.inl rfl)
    simp only [List.nil_append] at this
    rw [this]
    rfl

/-! the text of a call is one argument -/

theorem step_up {p : Pos} {c : Char} (h : ¬ (p = .top ∧ (c = ',' ∨ c ∈ closers))) (n : Nat) : (p.up n).step c = (p.step c).up n := by
  obtain ⟨d, q⟩ := p
  unfold Pos.step Pos.up
  cases q with
  | some q =>
    obtain ⟨q, b⟩ := q
    cases b with
    | true => rfl
    | false =>
      simp only
      split
      · rfl
      · split <;> rfl
  | none =>
    simp only
    split
    · rfl
    · split
      · simp only [Pos.mk.injEq, and_true]; omega
      · split
        · rename_i hc
          simp only [Pos.mk.injEq, and_true]
          have : d ≠ 0 := fun e => h ⟨by rw [e]; rfl, .inr hc⟩
          omega
        · rfl

theorem closesFrom_up {p : Pos} {t : List Char} (h : ClosesFrom p t) (n : Nat) (rest : List Char)
    (hr : ClosesFrom (Pos.up .top (n + 1)) rest) : ClosesFrom (p.up (n + 1)) (t ++ rest) := by
  induction t generalizing p with
  | nil => cases h; exact hr
  | cons c cs ih =>
    refine ⟨fun hx => ?_, ?_⟩
    · have := congrArg Pos.depth hx.1
      simp [Pos.up, Pos.top] at this
    · rw [step_up h.1]; exact ih h.2

theorem argsText_up {l : List (String × String)} (h : ∀ a ∈ l, GoodArg a) :
    ClosesFrom (Pos.up .top 1) (argsText l ++ [')']) := by
  have hend : ClosesFrom (Pos.up .top 1) [')'] := ⟨by decide, by decide⟩
  induction l with
  | nil => exact hend
  | cons kv l ih =>
    cases l with
    | nil => exact closesFrom_up (h kv (by simp)).closes 0 _ hend
    | cons kv' l =>
      rw [argsText_cons, List.append_assoc]
      refine closesFrom_up (h kv (by simp)).closes 0 _ ⟨by decide, by decide, ?_⟩
      have e : ((Pos.up .top 1).step ',').step ' ' = Pos.up .top 1 := by decide
      rw [e]
      exact ih fun a ha => h a (List.mem_cons_of_mem _ ha)

theorem oneArg_callText {name : String} (hn : PlainName name) {l : List (String × String)} (h : ∀ a ∈ l, GoodArg a) :
    OneArg (callText name l) := by
  unfold OneArg
  rw [callText_toList]
  refine closesFrom_append (closesFrom_plain hn) ⟨by decide, ?_⟩
  exact argsText_up h

end Records

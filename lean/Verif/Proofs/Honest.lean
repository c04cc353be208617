import Verif.Spec.Honest
import Verif.Proofs.Monad
/-
Exceptions that are no `Exception` go through every layer.
-/
set_option linter.unusedSimpArgs false
namespace Records
variable {W : World} {α β : Type} {p : W.St → Option Exc}

/-! ### the monad -/

/-- a way to prove `Reports`: by the outcome of the computation -/
theorem Reports.of {x : M W α} (h : ∀ s r s', x s = (r, s') → p s.user = none → ∀ e, p s'.user = some e →
    r = .error e ∧ e.isException = false) : Reports p x := fun s hs e he => h s _ _ rfl hs e he

theorem Reports.ok {x : M W α} (h : Reports p x) {s s' : LState W} {a : α} (hx : x s = (.ok a, s')) (hs : p s.user = none) :
    p s'.user = none := by
  cases he : p s'.user with
  | none => rfl
  | some e => have := (h s hs e (by rw [hx]; exact he)).1; rw [hx] at this; cases this

theorem Reports.exc {x : M W α} (h : Reports p x) {s s' : LState W} {e : Exc} (hx : x s = (.error e, s'))
    (hs : p s.user = none) (hb : e.isException = true) : p s'.user = none := by
  cases he : p s'.user with
  | none => rfl
  | some e' =>
    have := h s hs e' (by rw [hx]; exact he)
    rw [hx] at this
    obtain ⟨h1, h2⟩ := this
    cases h1; rw [hb] at h2; cases h2

theorem Reports.err {x : M W α} (h : Reports p x) {s s' : LState W} {e e' : Exc} (hx : x s = (.error e, s'))
    (hs : p s.user = none) (he : p s'.user = some e') : e = e' ∧ e'.isException = false := by
  have := h s hs e' (by rw [hx]; exact he)
  rw [hx] at this
  obtain ⟨h1, h2⟩ := this
  cases h1; exact ⟨rfl, h2⟩

/-- computations that leave the user state alone -/
theorem Reports.quiet {x : M W α} (h : ∀ s, (x s).2.user = s.user) : Reports p x := by
  intro s hs e he
  rw [h s, hs] at he; cases he

theorem Reports.pure (a : α) : Reports p (M.pure a : M W α) := .quiet fun _ => rfl

theorem Reports.throw (e : Exc) : Reports p (M.throw e : M W α) := .quiet fun _ => rfl

theorem Reports.ofExcept (r : Except Exc α) : Reports p (M.ofExcept r : M W α) := by
  cases r
  · exact .throw _
  · exact .pure _

theorem Reports.generator {x : M W α} (hx : Reports p x) : Reports p (M.generator x) := by
  intro s hs e he
  rcases h : x s with ⟨e1 | a, s1⟩
  · rw [M.generator_error h] at he ⊢
    obtain ⟨rfl, h2⟩ := hx.err h hs he
    refine ⟨?_, h2⟩
    show Except.error e1.leaving = _
    rw [Exc.leaving_of_ne]
    intro hk
    unfold Exc.isException at h2
    rw [hk] at h2
    cases h2
  · rw [M.generator_ok h] at he
    rw [hx.ok h hs] at he
    cases he

theorem Reports.bind {x : M W α} {f : α → M W β} (hx : Reports p x) (hf : ∀ a, Reports p (f a)) :
    Reports p (M.bind x f) := by
  intro s hs e he
  rcases h : x s with ⟨r, s1⟩
  cases r with
  | ok a =>
    have h1 := hx.ok h hs
    have hb : M.bind x f s = f a s1 := by unfold M.bind; rw [h]
    rw [hb] at he ⊢
    exact hf a s1 h1 e he
  | error e1 =>
    have hb : M.bind x f s = (.error e1, s1) := by unfold M.bind; rw [h]
    rw [hb] at he ⊢
    obtain ⟨h1, h2⟩ := hx.err h hs he
    exact ⟨by rw [h1], h2⟩

theorem Reports.foldM {f : β → α → M W α} {l : List β} (hf : ∀ b ∈ l, ∀ a, Reports p (f b a)) (a : α) :
    Reports p (M.foldM f l a) := by
  induction l generalizing a with
  | nil => exact .pure _
  | cons b l ih =>
    exact .bind (hf b (.head _) a) fun a => ih (fun b hb => hf b (.tail _ hb)) a

theorem Reports.mapM {f : β → M W α} {l : List β} (hf : ∀ b ∈ l, Reports p (f b)) : Reports p (M.mapM f l) := by
  induction l with
  | nil => exact .pure _
  | cons b l ih =>
    exact .bind (hf b (.head _)) fun a => .bind (ih fun b hb => hf b (.tail _ hb)) fun _ => .pure _

theorem Reports.tryExcept {x : M W α} {handled : Exc → Bool} {handler : Exc → M W α} (hx : Reports p x)
    (hh : ∀ e, handled e = true → e.isException = true) (hr : ∀ e, Reports p (handler e)) :
    Reports p (M.tryExcept x handled handler) := by
  intro s hs e he
  rcases h : x s with ⟨r, s1⟩
  unfold M.tryExcept at he ⊢
  simp only [h] at he ⊢
  cases r with
  | ok a => have := hx.ok h hs; simp only at he; rw [this] at he; cases he
  | error e1 =>
    simp only at he ⊢
    by_cases hc : handled e1 = true
    · rw [if_pos hc] at he ⊢
      exact hr e1 s1 (hx.exc h hs (hh e1 hc)) e he
    · rw [if_neg hc] at he ⊢
      obtain ⟨h1, h2⟩ := hx.err h hs he
      exact ⟨by rw [h1], h2⟩

theorem Reports.ite {c : Prop} [Decidable c] {x y : M W α} (hx : c → Reports p x) (hy : ¬ c → Reports p y) :
    Reports p (if c then x else y) := by
  by_cases h : c
  · rw [if_pos h]; exact hx h
  · rw [if_neg h]; exact hy h

/-! ### coercion tokens -/

theorem Reports.composeRun {fs : List (Coercer W)} (h : ∀ f ∈ fs, ∀ v, Reports p (f v)) (v : W.Obj) :
    Reports p (composeRun fs v) :=
  .foldM (fun f hf v => h f (List.mem_reverse.1 hf) v) v

theorem Reports.boolFromInt (v : W.Obj) : Reports p (boolFromInt v) := by
  unfold Records.boolFromInt
  exact .ite (fun _ => .pure _) fun _ => .ite (fun _ => .pure _) fun _ => .throw _

mutual
theorem getCoercer_reports (b : Bool) (o : Option W.Cls) (t : CTok W) (ht : t.Reports p) (c : Coercer W)
    (h : getCoercer b o t = .ok c) (v : W.Obj) : Reports p (c v) := by
  match t with
  | .coercer f => rw [getCoercer] at h; rw [CTok.Reports] at ht; exact ht o c h v
  | .fromInteger =>
    rw [getCoercer] at h
    by_cases hb : b = true
    · rw [if_pos hb] at h; cases h; exact .boolFromInt v
    · rw [if_neg hb] at h; cases h
  | .notToken => rw [getCoercer] at h; cases h
  | .compose ts =>
    rw [getCoercer] at h; rw [CTok.Reports] at ht
    cases hfs : getCoercers b o ts with
    | error e => rw [hfs] at h; cases h
    | ok fs => rw [hfs] at h; cases h; exact .composeRun (getCoercers_reports b o ts ht fs hfs) v
theorem getCoercers_reports (b : Bool) (o : Option W.Cls) (ts : List (CTok W)) (ht : CTok.ReportsL p ts)
    (fs : List (Coercer W)) (h : getCoercers b o ts = .ok fs) : ∀ f ∈ fs, ∀ v, Reports p (f v) := by
  match ts with
  | [] => rw [getCoercers] at h; cases h; nofun
  | t :: ts =>
    rw [getCoercers] at h; rw [CTok.ReportsL] at ht
    cases hf : getCoercer b o t with
    | error e => rw [hf] at h; cases h
    | ok f =>
      cases hfs : getCoercers b o ts with
      | error e => rw [hf, hfs] at h; cases h
      | ok fs' =>
        rw [hf, hfs] at h; cases h
        intro g hg v
        cases hg with
        | head => exact getCoercer_reports b o t ht.1 f hf v
        | tail _ hg => exact getCoercers_reports b o ts ht.2 fs' hfs g hg v
end

/-! ### annotated fillers -/

/-- all callbacks of an annotated filler report -/
structure Ann.Rep (p : W.St → Option Exc) (a : Ann W) : Prop where
  args : ∀ t ∈ a.args, t.Reports p
  coercers : ∀ c ∈ a.coercers, ∀ v, Reports p (c v)
  validators : ∀ c ∈ a.validators, ∀ v, Reports p (c v)

theorem Ann.Rep.apply {a a' : Ann W} (h : a.Rep p) {t : Tok W} (ht : t.Reports p) (e : a.apply t = .ok a') : a'.Rep p := by
  unfold Ann.apply at e
  by_cases hb : a.bound = true
  · rw [if_pos hb] at e; cases e
  · rw [if_neg hb] at e
    cases t with
    | style s => cases e; exact ⟨h.1, h.2, h.3⟩
    | coercion ct =>
      simp only at e
      cases hc : getCoercer a.kind.isBool a.kind.origin ct with
      | error x => rw [hc] at e; cases e
      | ok c =>
        rw [hc] at e; cases e
        refine ⟨h.1, ?_, h.3⟩
        intro d hd v
        rcases List.mem_append.1 hd with hd | hd
        · exact h.2 d hd v
        · cases List.mem_singleton.1 hd; exact getCoercer_reports _ _ ct ht c hc v
    | validation f =>
      simp only at e
      cases hc : f a.kind.origin with
      | error x => rw [hc] at e; cases e
      | ok c =>
        rw [hc] at e; cases e
        refine ⟨h.1, h.2, ?_⟩
        intro d hd v
        rcases List.mem_append.1 hd with hd | hd
        · exact h.3 d hd v
        · cases List.mem_singleton.1 hd; exact ht _ c hc v
    | raises x => cases e
    | tag n => cases e; exact h
    | other => cases e; exact h

theorem Ann.Rep.applyAll {a a' : Ann W} (h : a.Rep p) {ts : List (Tok W)} (ht : ∀ t ∈ ts, t.Reports p)
    (e : a.applyAll ts = .ok a') : a'.Rep p := by
  induction ts generalizing a with
  | nil => cases e; exact h
  | cons t ts ih =>
    rw [Ann.applyAll] at e
    cases h1 : a.apply t with
    | error x => rw [h1] at e; cases e
    | ok a1 =>
      rw [h1] at e
      exact ih (h.apply (ht t (.head _)) h1) (fun t hm => ht t (.tail _ hm)) e

theorem Ann.Rep.addValidator {a : Ann W} (h : a.Rep p) {f : Coercer W} (hf : ∀ v, Reports p (f v)) :
    (a.addValidator f).Rep p := by
  refine ⟨h.1, h.2, ?_⟩
  intro c hc v
  rcases List.mem_append.1 hc with hc | hc
  · exact h.3 c hc v
  · cases List.mem_singleton.1 hc; exact hf v

theorem Reports.literalValidator (id : Nat) (vals : List W.Obj) (v : W.Obj) : Reports p (literalValidator id vals v) := by
  apply Reports.quiet
  intro s
  unfold Records.literalValidator
  simp only
  repeat' split
  all_goals rfl

theorem Ann.Rep.bind {a a' : Ann W} (h : a.Rep p) {d : Style} (e : a.bind d = .ok a') : a'.Rep p := by
  unfold Ann.bind at e
  cases h1 : a.applyAll a.args with
  | error x => rw [h1] at e; cases e
  | ok a1 =>
    rw [h1] at e
    have r1 := h.applyAll h.1 h1
    simp only at e
    cases h2 : a1.bindBase d with
    | error x => rw [h2] at e; cases e
    | ok a2 =>
      rw [h2] at e
      simp only at e
      have r2 : a2.Rep p := by
        unfold Ann.bindBase at h2
        by_cases hb : a1.bound = true
        · rw [if_pos hb] at h2; cases h2
        · rw [if_neg hb] at h2
          simp only at h2
          generalize (if a1.style = Style.default then d else a1.style) = st at h2
          split at h2
          · cases h2
          · cases h2; exact ⟨r1.1, r1.2, r1.3⟩
      unfold Ann.bindKind at e
      split at e
      · split at e
        · cases e
        · cases e; exact r2
      · split at e
        · cases e
        · cases e; exact r2
      · split at e
        · cases e
        · cases e; exact r2
      · cases e; exact r2
      · split at e
        · cases e; exact r2
        · cases e; exact r2.addValidator (.literalValidator _ _)

theorem Reports.coerceLoop (k : Kind W) (st : Style) {cs : List (Coercer W)} (h : ∀ c ∈ cs, ∀ v, Reports p (c v))
    (v : W.Obj) : Reports p (coerceLoop k st cs v) := by
  induction cs generalizing v with
  | nil => exact .pure _
  | cons c cs ih =>
    have hc := h c (.head _) v
    have ih' := fun w => ih (fun c hc => h c (.tail _ hc)) w
    apply Reports.of
    intro s r s' hx hs e he
    rcases h1 : c v s with ⟨r1, s1⟩
    simp only [Records.coerceLoop, h1] at hx
    cases r1 with
    | ok w =>
      have hn := hc.ok h1 hs
      simp only at hx
      split at hx
      · split at hx
        · cases hx; rw [hn] at he; cases he
        · have := ih' w s1 hn e (by rw [hx]; exact he); rw [hx] at this; exact this
      · cases hx; rw [hn] at he; cases he
    | error e1 =>
      simp only at hx
      split at hx
      · rename_i hb
        have hn := hc.exc h1 hs hb
        split at hx
        · cases hx; rw [hn] at he; cases he
        · have := ih' v s1 hn e (by rw [hx]; exact he); rw [hx] at this; exact this
      · cases hx
        obtain ⟨h2, h3⟩ := hc.err h1 hs he
        exact ⟨by rw [h2], h3⟩

theorem Reports.validate {vs : List (Coercer W)} (h : ∀ c ∈ vs, ∀ v, Reports p (c v)) (v : W.Obj) (k : TPK) :
    Reports p (validate vs v k) :=
  .bind (.foldM (fun f hf v => h f hf v) v) fun _ => .pure _

theorem Ann.Rep.fill {a : Ann W} (h : a.Rep p) (v : W.Obj) : Reports p (a.fill v) := by
  have main : ∀ st, Reports p (fun s =>
      let tc := a.kind.typeCheck v s
      if tc = .exact then Records.validate a.validators v .noCoerceStrict s
      else if tc = .inexact ∧ st = Style.check then Records.validate a.validators v .noCoerce s
      else if a.coercers.isEmpty then (.error .typeError, s)
      else M.bind (Records.coerceLoop a.kind st a.coercers v) (fun w => Records.validate a.validators w .coerce) s) := by
    intro st s hs e he
    simp only at he ⊢
    split at he
    · rename_i h1; rw [if_pos h1]; exact Reports.validate h.3 v _ s hs e he
    · rename_i h1; rw [if_neg h1]
      split at he
      · rename_i h2; rw [if_pos h2]; exact Reports.validate h.3 v _ s hs e he
      · rename_i h2; rw [if_neg h2]
        split at he
        · rw [hs] at he; cases he
        · rename_i h3; rw [if_neg h3]
          exact (Reports.bind (.coerceLoop _ _ h.2 v) fun w => .validate h.3 w _) s hs e he
  unfold Ann.fill
  cases a.style with
  | default => exact .throw _
  | hollow => exact .validate h.3 v _
  | check => exact main .check
  | checkStrict => exact main .checkStrict

theorem Ann.Rep.call {a : Ann W} (h : a.Rep p) (v : W.Obj) : Reports p (a.call v) := by
  unfold Ann.call
  exact .ite (fun _ => .pure _) fun _ => .bind (h.fill v) fun _ => .pure _

/-! ### unions and containers -/

theorem Reports.unionLoop (v : W.Obj) {fs : List (W.Obj → M W (W.Obj × TPK))} (h : ∀ f ∈ fs, Reports p (f v))
    (best : List W.Obj) (key : Option TPK) : Reports p (unionLoop v fs best key) := by
  induction fs generalizing best key with
  | nil =>
    unfold Records.unionLoop
    split
    · exact .ite (fun _ => .throw _) fun _ => .pure _
    · exact .throw _
  | cons f fs ih =>
    have hf := h f (.head _)
    have ih' := fun b k => ih (fun c hc => h c (.tail _ hc)) b k
    apply Reports.of
    intro s r s' hx hs e he
    rcases h1 : f v s with ⟨r1, s1⟩
    simp only [Records.unionLoop, h1] at hx
    have go : ∀ b k, p s1.user = none → Records.unionLoop v fs b k s1 = (r, s') → r = .error e ∧ e.isException = false := by
      intro b k hn hx
      have := ih' b k s1 hn e (by rw [hx]; exact he); rw [hx] at this; exact this
    cases r1 with
    | ok w =>
      obtain ⟨x, k⟩ := w
      have hn := hf.ok h1 hs
      simp only at hx
      split at hx
      · exact go _ _ hn hx
      · split at hx
        · exact go _ _ hn hx
        · split at hx
          · exact go _ _ hn hx
          · exact go _ _ hn hx
    | error e1 =>
      simp only at hx
      split at hx
      · cases hx
        obtain ⟨h2, h3⟩ := hf.err h1 hs he
        exact ⟨by rw [h2], h3⟩
      · rename_i hb
        have hn := hf.exc h1 hs (by simpa using hb)
        split at hx
        · cases hx; rw [hn] at he; cases he
        · exact go _ _ hn hx

theorem Reports.elemLoop (drains : Bool) {rebuild : List W.Obj → M W W.Obj} (hr : ∀ l, Reports p (rebuild l)) (v : W.Obj)
    {es : List (W.Obj × (W.Obj → M W W.Obj))} (h : ∀ q ∈ es, ∀ w, Reports p (q.2 w)) (pre : List W.Obj) :
    Reports p (elemLoop drains rebuild v es pre) := by
  induction es generalizing pre with
  | nil => exact .pure _
  | cons q es ih =>
    obtain ⟨x, f⟩ := q
    rw [Records.elemLoop]
    refine .bind (h _ (.head _) x) fun w => .ite (fun _ => ih (fun q hq => h q (.tail _ hq)) _) fun _ => .ite (fun _ => ?_) fun _ => hr _
    exact .bind (.generator (.mapM fun q hq => h q (.tail _ hq) _)) fun _ => hr _

theorem Reports.iterValidator (hW : W.Reports p) (deque : Bool) {f : W.Obj → M W W.Obj} (hf : ∀ v, Reports p (f v))
    (v : W.Obj) : Reports p (iterValidator deque f v) := by
  unfold Records.iterValidator
  apply Reports.elemLoop
  · intro l
    cases deque
    · exact hW.mkIter _ _
    · exact hW.mkDeque _ _ _
  · intro q hq w
    obtain ⟨e, _, rfl⟩ := List.mem_map.1 hq
    exact hf w

theorem Reports.tupleValidator (hW : W.Reports p) {fs : List (W.Obj → M W W.Obj)} (hf : ∀ f ∈ fs, ∀ v, Reports p (f v))
    (v : W.Obj) : Reports p (tupleValidator fs v) := by
  unfold Records.tupleValidator
  apply Reports.elemLoop
  · intro l; exact hW.mkIter _ _
  · intro q hq w
    exact hf _ (List.of_mem_zip hq).2 w

theorem Reports.mapValidator (hW : W.Reports p) (dd : Bool) {fk fv : W.Obj → M W W.Obj} (hk : ∀ v, Reports p (fk v))
    (hv : ∀ v, Reports p (fv v)) (v : W.Obj) : Reports p (mapValidator dd fk fv v) := by
  unfold Records.mapValidator
  refine .bind (.mapM fun q _ => .bind (hk _) fun _ => .bind (hv _) fun _ => .pure _) fun l => .ite (fun _ => ?_) fun _ => .pure _
  cases dd
  · exact hW.mkMap _ _
  · exact hW.mkDefaultDict _ _ _

theorem Reports.typeValidator (base : Option W.Cls) (v : W.Obj) : Reports p (typeValidator base v) := by
  unfold Records.typeValidator
  split
  · exact .ite (fun _ => .pure _) fun _ => .throw _
  · exact .throw _

theorem Reports.tupleLenValidator (n : Nat) (v : W.Obj) : Reports p (tupleLenValidator n v) := by
  unfold Records.tupleLenValidator
  exact .ite (fun _ => .throw _) fun _ => .pure _

/-! ### fillers -/

mutual
/-- all callbacks of a filler report -/
def F.Rep (p : W.St → Option Exc) : F W → Prop
  | .dumb _ => True
  | .failing _ => True
  | .ann a => a.Rep p
  | .union _ args applied subs => (∀ t ∈ args ++ applied, t.Reports p) ∧ F.RepL p subs
  | .wrap _ _ inner subs => inner.Rep p ∧ F.RepL p subs
def F.RepL (p : W.St → Option Exc) : List (F W) → Prop
  | [] => True
  | f :: fs => f.Rep p ∧ F.RepL p fs
end

theorem F.RepL.mem {fs : List (F W)} (h : F.RepL p fs) : ∀ f ∈ fs, f.Rep p := by
  induction fs with
  | nil => nofun
  | cons f fs ih =>
    rw [F.RepL] at h
    intro g hg
    cases hg with
    | head => exact h.1
    | tail _ hg => exact ih h.2 g hg

theorem F.RepL.of {fs : List (F W)} (h : ∀ f ∈ fs, f.Rep p) : F.RepL p fs := by
  induction fs with
  | nil => rw [F.RepL]; trivial
  | cons f fs ih => rw [F.RepL]; exact ⟨h f (.head _), ih fun g hg => h g (.tail _ hg)⟩

mutual
theorem F.Rep.fill {f : F W} (h : f.Rep p) (v : W.Obj) : Reports p (f.fill v) := by
  match f with
  | .dumb _ => rw [F.fill]; exact .pure _
  | .failing _ => rw [F.fill]; exact .throw _
  | .ann a => rw [F.fill]; rw [F.Rep] at h; exact h.fill v
  | .union _ _ _ subs =>
    rw [F.fill]; rw [F.Rep] at h
    exact .ite (fun _ => .pure _) fun _ => .unionLoop v (F.RepL.fills h.2 v) _ _
  | .wrap _ _ inner _ => rw [F.fill]; rw [F.Rep] at h; exact h.1.fill v
theorem F.RepL.fills {fs : List (F W)} (h : F.RepL p fs) (v : W.Obj) : ∀ g ∈ F.fills fs, Reports p (g v) := by
  match fs with
  | [] => rw [F.fills]; nofun
  | f :: fs =>
    rw [F.fills]; rw [F.RepL] at h
    intro g hg
    cases hg with
    | head => exact h.1.fill v
    | tail _ hg => exact F.RepL.fills h.2 v g hg
end

theorem F.Rep.call {f : F W} (h : f.Rep p) (v : W.Obj) : Reports p (f.call v) := by
  have main : Reports p (M.bind (f.fill v) fun r => M.pure r.1) := .bind (h.fill v) fun _ => .pure _
  cases f with
  | ann a => rw [F.Rep] at h; exact h.call v
  | dumb b => exact main
  | failing e => exact main
  | union _ _ _ _ => exact main
  | wrap _ _ _ _ => exact main

theorem F.Rep.apply {f f' : F W} (h : f.Rep p) {t : Tok W} (ht : t.Reports p) (e : f.apply t = .ok f') : f'.Rep p := by
  cases f with
  | dumb b => cases e
  | failing x => cases e; exact h
  | ann a =>
    rw [F.Rep] at h
    rw [F.apply] at e
    cases h1 : a.apply t with
    | error x => rw [h1] at e; cases e
    | ok a' => rw [h1] at e; cases e; rw [F.Rep]; exact h.apply ht h1
  | union b args applied subs =>
    rw [F.Rep] at h
    rw [F.apply] at e
    split at e
    · cases e
    · cases e
      rw [F.Rep]
      refine ⟨?_, h.2⟩
      intro u hu
      rw [← List.append_assoc] at hu
      rcases List.mem_append.1 hu with hu | hu
      · exact h.1 u hu
      · cases List.mem_singleton.1 hu; exact ht
  | wrap b k inner subs =>
    rw [F.Rep] at h
    rw [F.apply] at e
    cases h1 : inner.apply t with
    | error x => rw [h1] at e; cases e
    | ok a' => rw [h1] at e; cases e; rw [F.Rep]; exact ⟨h.1.apply ht h1, h.2⟩

theorem wrapFinish_rep (hW : W.Reports p) {k : WrapKind W} {inner inner' : Ann W} {subs : List (F W)} (hi : inner.Rep p)
    (hs : F.RepL p subs) (e : wrapFinish k inner subs = .ok inner') : inner'.Rep p := by
  have call : ∀ f ∈ subs, ∀ v, Reports p (f.call v) := fun f hf v => (hs.mem f hf).call v
  have iter : ∀ (b : Bool) (s : List (F W)), s = subs → (match s with
    | [f] =>
      if f.isHollow then Except.ok inner
      else if inner.style = Style.hollow then .error Exc.typeError
      else .ok (inner.addValidator (iterValidator b f.call))
    | _ => .ok inner) = .ok inner' → inner'.Rep p := by
    intro b s hs e
    split at e
    · rename_i f
      split at e
      · cases e; exact hi
      · split at e
        · cases e
        · cases e; exact hi.addValidator (.iterValidator hW _ (call f (by rw [← hs]; exact .head _)))
    · cases e; exact hi
  have map : ∀ (b : Bool) (s : List (F W)), s = subs → (match s with
    | [fk, fv] =>
      if fk.isHollow && fv.isHollow then Except.ok inner
      else if inner.style = Style.hollow then .error Exc.typeError
      else .ok (inner.addValidator (mapValidator b fk.call fv.call))
    | _ => .ok inner) = .ok inner' → inner'.Rep p := by
    intro b s hs e
    split at e
    · rename_i fk fv
      split at e
      · cases e; exact hi
      · split at e
        · cases e
        · cases e
          exact hi.addValidator (.mapValidator hW _ (call fk (by rw [← hs]; exact .head _))
            (call fv (by rw [← hs]; exact .tail _ (.head _))))
    · cases e; exact hi
  cases k with
  | typeF base =>
    unfold wrapFinish at e
    simp only at e
    split at e
    · cases e; exact hi
    · cases e; exact hi.addValidator (.typeValidator _)
  | tupleFix =>
    unfold wrapFinish at e
    simp only at e
    have h1 : (if inner.style = .hollow then inner else inner.addValidator (tupleLenValidator subs.length)).Rep p := by
      split
      · exact hi
      · exact hi.addValidator (.tupleLenValidator _)
    split at e
    · cases e; exact h1
    · split at e
      · cases e
      · rename_i h2
        cases e
        rw [if_neg h2] at h1
        refine h1.addValidator (.tupleValidator hW ?_)
        intro f hf v
        obtain ⟨g, hg, rfl⟩ := List.mem_map.1 hf
        exact call g hg v
  | tupleVar => exact iter false subs rfl e
  | iter => exact iter false subs rfl e
  | deque => exact iter true subs rfl e
  | mapping => exact map false subs rfl e
  | defaultdict => exact map true subs rfl e
  | generic =>
    unfold wrapFinish at e
    simp only at e
    split at e
    · cases e; exact hi
    · cases e

mutual
theorem F.Rep.bind (hW : W.Reports p) {d : Style} {f f' : F W} (h : f.Rep p) (e : f.bind d = .ok f') : f'.Rep p := by
  match f with
  | .dumb b =>
    rw [F.bind] at e
    split at e
    · cases e
    · split at e
      · cases e
      · cases e; rw [F.Rep]; trivial
  | .failing x => rw [F.bind] at e; cases e
  | .ann a =>
    rw [F.bind] at e
    rw [F.Rep] at h
    cases h1 : a.bind d with
    | error x => rw [h1] at e; cases e
    | ok a' => rw [h1] at e; cases e; rw [F.Rep]; exact h.bind h1
  | .union b args applied subs =>
    rw [F.bind] at e
    rw [F.Rep] at h
    split at e
    · cases e
    · cases h1 : F.bindUnion d (args ++ applied) subs with
      | error x => rw [h1] at e; cases e
      | ok subs' =>
        rw [h1] at e; cases e; rw [F.Rep]
        exact ⟨h.1, F.RepL.bindUnion hW h.2 h.1 h1⟩
  | .wrap b k inner subs =>
    rw [F.bind] at e
    rw [F.Rep] at h
    split at e
    · cases e
    · cases h1 : inner.bind d with
      | error x => rw [h1] at e; cases e
      | ok inner1 =>
        rw [h1] at e
        simp only at e
        cases h2 : F.bindAll d subs with
        | error x => rw [h2] at e; cases e
        | ok subs' =>
          rw [h2] at e
          simp only at e
          cases h3 : wrapFinish k inner1 subs' with
          | error x => rw [h3] at e; cases e
          | ok inner2 =>
            rw [h3] at e; cases e
            have hs := F.RepL.bindAll hW h.2 h2
            rw [F.Rep]
            exact ⟨wrapFinish_rep hW (h.1.bind h1) hs h3, hs⟩
theorem F.RepL.bindAll (hW : W.Reports p) {d : Style} {fs fs' : List (F W)} (h : F.RepL p fs) (e : F.bindAll d fs = .ok fs') :
    F.RepL p fs' := by
  match fs with
  | [] => rw [F.bindAll] at e; cases e; exact h
  | f :: fs =>
    rw [F.bindAll] at e
    rw [F.RepL] at h
    cases h1 : f.bind d with
    | error x => rw [h1] at e; cases e
    | ok f1 =>
      rw [h1] at e
      simp only at e
      cases h2 : F.bindAll d fs with
      | error x => rw [h2] at e; cases e
      | ok fs1 =>
        rw [h2] at e; cases e
        rw [F.RepL]; exact ⟨h.1.bind hW h1, F.RepL.bindAll hW h.2 h2⟩
theorem F.RepL.bindUnion (hW : W.Reports p) {d : Style} {toks : List (Tok W)} {fs fs' : List (F W)} (h : F.RepL p fs)
    (ht : ∀ t ∈ toks, t.Reports p) (e : F.bindUnion d toks fs = .ok fs') : F.RepL p fs' := by
  match fs with
  | [] => rw [F.bindUnion] at e; cases e; exact h
  | f :: fs =>
    rw [F.bindUnion] at e
    rw [F.RepL] at h
    cases h1 : F.applyBind d toks f with
    | error x => rw [h1] at e; cases e
    | ok f1 =>
      rw [h1] at e
      simp only at e
      cases h2 : F.bindUnion d toks fs with
      | error x => rw [h2] at e; cases e
      | ok fs1 =>
        rw [h2] at e; cases e
        rw [F.RepL]; exact ⟨h.1.applyBind hW ht h1, F.RepL.bindUnion hW h.2 ht h2⟩
theorem F.Rep.applyBind (hW : W.Reports p) {d : Style} {toks : List (Tok W)} {f f' : F W} (h : f.Rep p)
    (ht : ∀ t ∈ toks, t.Reports p) (e : F.applyBind d toks f = .ok f') : f'.Rep p := by
  match f with
  | .dumb b =>
    rw [F.applyBind] at e
    split at e
    · cases e
    · split at e
      · cases e
      · split at e
        · cases e
        · cases e; rw [F.Rep]; trivial
  | .failing x => rw [F.applyBind] at e; cases e
  | .ann a =>
    rw [F.applyBind] at e
    rw [F.Rep] at h
    cases h0 : a.applyAll toks with
    | error x => rw [h0] at e; cases e
    | ok a0 =>
      rw [h0] at e
      simp only at e
      cases h1 : a0.bind d with
      | error x => rw [h1] at e; cases e
      | ok a' => rw [h1] at e; cases e; rw [F.Rep]; exact (h.applyAll ht h0).bind h1
  | .union b args applied subs =>
    rw [F.applyBind] at e
    rw [F.Rep] at h
    have ht' : ∀ t ∈ args ++ (applied ++ toks), t.Reports p := by
      intro t hm
      rw [← List.append_assoc] at hm
      rcases List.mem_append.1 hm with hm | hm
      · exact h.1 t hm
      · exact ht t hm
    split at e
    · cases e
    · cases h1 : F.bindUnion d (args ++ (applied ++ toks)) subs with
      | error x => rw [h1] at e; cases e
      | ok subs' =>
        rw [h1] at e; cases e; rw [F.Rep]
        exact ⟨ht', F.RepL.bindUnion hW h.2 ht' h1⟩
  | .wrap b k inner subs =>
    rw [F.applyBind] at e
    rw [F.Rep] at h
    cases h0 : inner.applyAll toks with
    | error x => rw [h0] at e; cases e
    | ok inner0 =>
      rw [h0] at e
      simp only at e
      split at e
      · cases e
      · cases h1 : inner0.bind d with
        | error x => rw [h1] at e; cases e
        | ok inner1 =>
          rw [h1] at e
          simp only at e
          cases h2 : F.bindAll d subs with
          | error x => rw [h2] at e; cases e
          | ok subs' =>
            rw [h2] at e
            simp only at e
            cases h3 : wrapFinish k inner1 subs' with
            | error x => rw [h3] at e; cases e
            | ok inner2 =>
              rw [h3] at e; cases e
              have hs := F.RepL.bindAll hW h.2 h2
              rw [F.Rep]
              exact ⟨wrapFinish_rep hW ((h.1.applyAll ht h0).bind h1) hs h3, hs⟩
end

/-! ### from type hints to fillers -/

theorem Ann.Rep.fresh {k : Kind W} {args : List (Tok W)} (h : ∀ t ∈ args, t.Reports p) :
    Ann.Rep p ({ kind := k, args := args } : Ann W) := ⟨h, nofun, nofun⟩

theorem noToks : ∀ t ∈ (none : Option (List (Tok W))).getD [], t.Reports p := fun _ h => nomatch h

mutual
theorem getF_rep {h : Hint W} (hh : h.Reports p) {args : Option (List (Tok W))} (ha : ∀ t ∈ args.getD [], t.Reports p)
    {f : F W} (e : getF h args = .ok f) : f.Rep p := by
  have one : ∀ {g : F W}, g.Rep p → F.RepL p [g] := fun hg => by rw [F.RepL, F.RepL]; exact ⟨hg, trivial⟩
  match h with
  | .cls c => rw [getF] at e; cases e; rw [F.Rep]; exact .fresh ha
  | .none => rw [getF] at e; cases e; rw [F.Rep]; exact .fresh ha
  | .any => rw [getF] at e; cases e; rw [F.Rep]; exact .fresh ha
  | .callable => rw [getF] at e; cases e; rw [F.Rep]; exact .fresh ha
  | .newType h => rw [getF] at e; rw [Hint.Reports] at hh; exact getF_rep hh (by simpa using ha) e
  | .union hs =>
    rw [getF] at e; rw [Hint.Reports] at hh
    cases h1 : getFs hs with
    | error x => rw [h1] at e; cases e
    | ok fs => rw [h1] at e; cases e; rw [F.Rep]; exact ⟨by simpa using ha, getFs_rep hh h1⟩
  | .literal id vals => rw [getF] at e; cases e; rw [F.Rep]; exact .fresh ha
  | .typeBare => rw [getF] at e; cases e; rw [F.Rep]; exact .fresh ha
  | .typeOf base => rw [getF] at e; cases e; rw [F.Rep, F.RepL]; exact ⟨.fresh ha, trivial⟩
  | .tupleFix hs =>
    rw [getF] at e; rw [Hint.Reports] at hh
    cases h1 : getFs hs with
    | error x => rw [h1] at e; cases e
    | ok fs => rw [h1] at e; cases e; rw [F.Rep]; exact ⟨.fresh ha, getFs_rep hh h1⟩
  | .tupleVar h =>
    rw [getF] at e; rw [Hint.Reports] at hh
    cases h1 : getF h none with
    | error x => rw [h1] at e; cases e
    | ok f => rw [h1] at e; cases e; rw [F.Rep]; exact ⟨.fresh ha, one (getF_rep hh noToks h1)⟩
  | .iter c h =>
    rw [getF] at e; rw [Hint.Reports] at hh
    cases h1 : getF h none with
    | error x => rw [h1] at e; cases e
    | ok f => rw [h1] at e; cases e; rw [F.Rep]; exact ⟨.fresh ha, one (getF_rep hh noToks h1)⟩
  | .deque c h =>
    rw [getF] at e; rw [Hint.Reports] at hh
    cases h1 : getF h none with
    | error x => rw [h1] at e; cases e
    | ok f => rw [h1] at e; cases e; rw [F.Rep]; exact ⟨.fresh ha, one (getF_rep hh noToks h1)⟩
  | .mapping c k v =>
    rw [getF] at e; rw [Hint.Reports] at hh
    cases h1 : getF k none with
    | error x => rw [h1] at e; cases e
    | ok fk =>
      rw [h1] at e
      simp only at e
      cases h2 : getF v none with
      | error x => rw [h2] at e; cases e
      | ok fv =>
        rw [h2] at e; cases e; rw [F.Rep]
        refine ⟨.fresh ha, ?_⟩
        rw [F.RepL]; exact ⟨getF_rep hh.1 noToks h1, one (getF_rep hh.2 noToks h2)⟩
  | .defaultdict c k v =>
    rw [getF] at e; rw [Hint.Reports] at hh
    cases h1 : getF k none with
    | error x => rw [h1] at e; cases e
    | ok fk =>
      rw [h1] at e
      simp only at e
      cases h2 : getF v none with
      | error x => rw [h2] at e; cases e
      | ok fv =>
        rw [h2] at e; cases e; rw [F.Rep]
        refine ⟨.fresh ha, ?_⟩
        rw [F.RepL]; exact ⟨getF_rep hh.1 noToks h1, one (getF_rep hh.2 noToks h2)⟩
  | .generic c hs =>
    rw [getF] at e; rw [Hint.Reports] at hh
    cases e; rw [F.Rep]; exact ⟨.fresh ha, getFsLate_rep hh⟩
  | .bareGeneric c => rw [getF] at e; cases e; rw [F.Rep]; exact .fresh ha
  | .annotated h toks =>
    rw [Hint.Reports] at hh
    cases args with
    | none => rw [getF] at e; exact getF_rep hh.1 (by simpa using hh.2) e
    | some args =>
      rw [getF] at e
      split at e
      · cases e; rw [F.Rep]; trivial
      · cases e
  | .opaque =>
    rw [getF] at e
    split at e
    · cases e; rw [F.Rep]; trivial
    · cases e
theorem getFs_rep {hs : List (Hint W)} (hh : Hint.ReportsL p hs) {fs : List (F W)} (e : getFs hs = .ok fs) : F.RepL p fs := by
  match hs with
  | [] => rw [getFs] at e; cases e; rw [F.RepL]; trivial
  | h :: hs =>
    rw [getFs] at e; rw [Hint.ReportsL] at hh
    cases h1 : getF h none with
    | error x => rw [h1] at e; cases e
    | ok f =>
      rw [h1] at e
      simp only at e
      cases h2 : getFs hs with
      | error x => rw [h2] at e; cases e
      | ok fs' =>
        rw [h2] at e; cases e; rw [F.RepL]; exact ⟨getF_rep hh.1 noToks h1, getFs_rep hh.2 h2⟩
theorem getFsLate_rep {hs : List (Hint W)} (hh : Hint.ReportsL p hs) : F.RepL p (getFsLate hs) := by
  match hs with
  | [] => rw [getFsLate, F.RepL]; trivial
  | h :: hs =>
    rw [getFsLate, F.RepL]; rw [Hint.ReportsL] at hh
    refine ⟨?_, getFsLate_rep hh.2⟩
    cases h1 : getF h none with
    | error x => simp only; rw [F.Rep]; trivial
    | ok f => simp only; exact getF_rep hh.1 noToks h1
end

theorem F.Rep.applySub {f f' : F W} (h : f.Rep p) {key : Option Int} {t : Tok W} (ht : t.Reports p)
    (e : f.applySub key t = .ok f') : f'.Rep p := by
  have at_ : ∀ (subs : List (F W)) (j : Option Nat) (re : List (F W) → F W), F.RepL p subs →
      (∀ l, F.RepL p l → (re l).Rep p) → F.withSub.at_ (fun g => g.apply t) subs j re = .ok f' → f'.Rep p := by
    intro subs j re hs hre e
    unfold F.withSub.at_ at e
    cases j with
    | none => cases e
    | some j =>
      simp only at e
      cases h1 : subs[j]? with
      | none => rw [h1] at e; cases e
      | some g =>
        rw [h1] at e
        simp only at e
        cases h2 : g.apply t with
        | error x => rw [h2] at e; cases e
        | ok g' =>
          rw [h2] at e; cases e
          apply hre
          apply F.RepL.of
          intro k hk
          rcases List.mem_or_eq_of_mem_set hk with hk | rfl
          · exact hs.mem k hk
          · exact (hs.mem g (List.mem_of_getElem? h1)).apply ht h2
  unfold F.applySub F.withSub at e
  cases key with
  | none => exact h.apply ht e
  | some i =>
    simp only at e
    cases f with
    | dumb b => cases e
    | failing x => cases e
    | ann a => cases e
    | union b args app subs =>
      rw [F.Rep] at h
      exact at_ _ _ _ h.2 (fun l hl => by rw [F.Rep]; exact ⟨h.1, hl⟩) e
    | wrap b k inner subs =>
      rw [F.Rep] at h
      have hre : ∀ l, F.RepL p l → (F.wrap b k inner l).Rep p := fun l hl => by rw [F.Rep]; exact ⟨h.1, hl⟩
      simp only at e
      split at e
      · exact at_ _ _ _ h.2 hre e
      · exact at_ _ _ _ h.2 hre e
      · split at e
        · exact at_ _ _ _ h.2 hre e
        · cases e
      · split at e
        · exact at_ _ _ _ h.2 hre e
        · cases e
      · split at e
        · exact at_ _ _ _ h.2 hre e
        · split at e
          · exact at_ _ _ _ h.2 hre e
          · cases e
      · split at e
        · exact at_ _ _ _ h.2 hre e
        · split at e
          · exact at_ _ _ _ h.2 hre e
          · cases e
      · cases e
      · cases e

theorem makeFiller_rep (hW : W.Reports p) {d : Style} {pre : List (Option Int × Tok W)} {h : Hint W} {f : F W}
    (hh : h.Reports p) (hp : ∀ q ∈ pre, q.2.Reports p) (e : makeFiller d pre h = .ok f) : f.Rep p := by
  have pres : ∀ (pre : List (Option Int × Tok W)) (f f' : F W), (∀ q ∈ pre, q.2.Reports p) → f.Rep p →
      f.applyPre pre = .ok f' → f'.Rep p := by
    intro pre
    induction pre with
    | nil => intro f f' _ hf e; cases e; exact hf
    | cons q pre ih =>
      intro f f' hp hf e
      obtain ⟨k, t⟩ := q
      rw [F.applyPre] at e
      cases h1 : f.applySub k t with
      | error x => rw [h1] at e; cases e
      | ok f1 =>
        rw [h1] at e
        exact ih f1 f' (fun q hq => hp q (.tail _ hq)) (hf.applySub (hp _ (.head _)) h1) e
  unfold makeFiller at e
  cases h1 : getFiller h with
  | error x => rw [h1] at e; cases e
  | ok f1 =>
    rw [h1] at e
    simp only at e
    cases h2 : f1.applyPre pre with
    | error x => rw [h2] at e; cases e
    | ok f2 =>
      rw [h2] at e
      exact (pres pre f1 f2 hp (getF_rep hh noToks h1) h2).bind hW e

/-! ### classes -/

/-- all callbacks of a class report -/
structure RecClass.Rep (p : W.St → Option Exc) (C : RecClass W) : Prop where
  fields : ∀ kf ∈ C.fields, kf.2.filler.Rep p ∧ ∀ d, kf.2.default = some d → d.Reports p
  parsers : ∀ q ∈ C.parsers, q.Reports p
  postNew : ∀ i, Reports p (C.postNew i)

/-- all callbacks of the fields report -/
def FieldsRep (p : W.St → Option Exc) (fs : Dict (Field W)) : Prop :=
  ∀ kf ∈ fs, kf.2.filler.Rep p ∧ ∀ d, kf.2.default = some d → d.Reports p

theorem Dict.mem_of_get? {V : Type} {d : Dict V} {k : String} {v : V} (h : d.get? k = some v) : (k, v) ∈ d := by
  induction d with
  | nil => cases h
  | cons a d ih =>
    obtain ⟨k', v'⟩ := a
    rw [Dict.get?] at h
    split at h
    · rename_i hk; cases h; cases hk; exact .head _
    · exact .tail _ (ih h)

theorem Dict.mem_set {V : Type} {d : Dict V} {k : String} {v : V} {a : String × V} (h : a ∈ d.set k v) :
    a ∈ d ∨ a = (k, v) := by
  induction d with
  | nil => rw [Dict.set] at h; cases List.mem_singleton.1 h; exact .inr rfl
  | cons b d ih =>
    obtain ⟨k', v'⟩ := b
    rw [Dict.set] at h
    split at h
    · cases h with
      | head => exact .inr rfl
      | tail _ h => exact .inl (.tail _ h)
    · cases h with
      | head => exact .inl (.head _)
      | tail _ h =>
        rcases ih h with h | h
        · exact .inl (.tail _ h)
        · exact .inr h

theorem Dict.mem_update {V : Type} {d e : Dict V} {a : String × V} (h : a ∈ d.update e) : a ∈ d ∨ a ∈ e := by
  induction e generalizing d with
  | nil => exact .inl h
  | cons b e ih =>
    rcases ih (d := d.set b.1 b.2) h with h | h
    · rcases Dict.mem_set h with h | h
      · exact .inl h
      · subst h; exact .inr (.head _)
    · exact .inr (.tail _ h)

theorem defaultOf_rep {sp : ClassSpec W} (h : sp.Reports p) {n : String} {d : Deflt W} (e : sp.defaultOf n = some d) :
    d.Reports p := by
  unfold ClassSpec.defaultOf at e
  cases h1 : sp.attrs.get? n with
  | none => rw [h1] at e; exact h.mroAttrs n d e
  | some d' => rw [h1] at e; cases e; exact h.attrs _ (Dict.mem_of_get? h1)

theorem fieldFromHint_rep {owner : W.Cls} {frozen : Bool} {n : String} {d : Option (Deflt W)} {h : FHint W} {f : Field W}
    (hh : h.Reports p) (hd : ∀ x, d = some x → x.Reports p) (e : fieldFromHint owner frozen n d h = .ok (some f)) :
    f.filler.Rep p ∧ ∀ x, f.default = some x → x.Reports p := by
  unfold fieldFromHint at e
  cases h with
  | rawFinal => cases e
  | classVar => cases e
  | plain h =>
    simp only at e
    cases h1 : getFiller h with
    | error x => rw [h1] at e; cases e
    | ok g => rw [h1] at e; cases e; exact ⟨getF_rep hh noToks h1, hd⟩
  | final h toks =>
    simp only at e
    split at e
    · cases e
    · cases h1 : getFiller h with
      | error x => rw [h1] at e; cases e
      | ok g => rw [h1] at e; cases e; exact ⟨getF_rep hh.1 noToks h1, hd⟩

theorem ownFields_rep {sp : ClassSpec W} (h : sp.Reports p) {l : List (String × FHint W)} (hl : ∀ a ∈ l, a.2.Reports p)
    {fs : Dict (Field W)} (e : ownFields sp l = .ok fs) : FieldsRep p fs := by
  induction l generalizing fs with
  | nil => rw [ownFields] at e; cases e; nofun
  | cons a l ih =>
    obtain ⟨n, t⟩ := a
    rw [ownFields] at e
    cases h1 : fieldFromHint sp.cid sp.frozen n (sp.defaultOf n) t with
    | error x => rw [h1] at e; cases e
    | ok f =>
      rw [h1] at e
      simp only at e
      cases h2 : ownFields sp l with
      | error x => rw [h2] at e; cases e
      | ok fs' =>
        rw [h2] at e
        have hr := ih (fun a ha => hl a (.tail _ ha)) h2
        cases f with
        | none => cases e; exact hr
        | some f =>
          cases e
          intro kf hkf
          cases hkf with
          | head => exact fieldFromHint_rep (hl _ (.head _)) (fun x hx => defaultOf_rep h hx) h1
          | tail _ hkf => exact hr kf hkf

theorem addInherited_rep {own l acc fs : Dict (Field W)} (hl : FieldsRep p l) (ha : FieldsRep p acc)
    (e : addInherited own l acc = .ok fs) : FieldsRep p fs := by
  induction l generalizing acc with
  | nil => rw [addInherited] at e; cases e; exact ha
  | cons a l ih =>
    obtain ⟨k, f⟩ := a
    rw [addInherited] at e
    split at e
    · cases e
    · refine ih (fun kf h => hl kf (.tail _ h)) ?_ e
      intro kf hkf
      rcases Dict.mem_set hkf with h | h
      · exact ha kf h
      · subst h; exact hl _ (.head _)

theorem inheritedFields_rep {own acc fs : Dict (Field W)} {ps : List (RecClass W)} (hp : ∀ q ∈ ps, q.Rep p)
    (ha : FieldsRep p acc) (e : inheritedFields own ps acc = .ok fs) : FieldsRep p fs := by
  induction ps generalizing acc with
  | nil => rw [inheritedFields] at e; cases e; exact ha
  | cons q ps ih =>
    rw [inheritedFields] at e
    cases h1 : addInherited own q.fields acc with
    | error x => rw [h1] at e; cases e
    | ok acc' =>
      rw [h1] at e
      exact ih (fun q hq => hp q (.tail _ hq)) (addInherited_rep (hp q (.head _)).fields ha h1) e

theorem preBind_rep {l : List (String × Option Int × Tok W)} (hl : ∀ q ∈ l, q.2.2.Reports p) {fs fs' : Dict (Field W)}
    (h : FieldsRep p fs) (e : preBind l fs = .ok fs') : FieldsRep p fs' := by
  induction l generalizing fs with
  | nil => rw [preBind] at e; cases e; exact h
  | cons q l ih =>
    obtain ⟨n, key, t⟩ := q
    rw [preBind] at e
    cases h1 : preStep fs n key t with
    | error x => rw [h1] at e; cases e
    | ok fs1 =>
      rw [h1] at e
      refine ih (fun q hq => hl q (.tail _ hq)) ?_ e
      unfold preStep at h1
      cases h2 : fs.get? n with
      | none => rw [h2] at h1; cases h1
      | some f =>
        rw [h2] at h1
        simp only at h1
        cases h3 : f.filler.applySub key t with
        | error x => rw [h3] at h1; cases h1
        | ok g =>
          rw [h3] at h1; cases h1
          have hf := h _ (Dict.mem_of_get? h2)
          intro kf hkf
          rcases Dict.mem_set hkf with hk | hk
          · exact h kf hk
          · subst hk; exact ⟨hf.1.applySub (hl _ (.head _)) h3, hf.2⟩

theorem bindFields_rep (hW : W.Reports p) {c : W.Cls} {d : Style} {fs fs' : Dict (Field W)} (h : FieldsRep p fs)
    (e : bindFields c d fs = .ok fs') : FieldsRep p fs' := by
  induction fs generalizing fs' with
  | nil => rw [bindFields] at e; cases e; exact h
  | cons a fs ih =>
    obtain ⟨n, f⟩ := a
    rw [bindFields] at e
    have hf := h _ (.head _)
    have hr := fun {l} (e : bindFields c d fs = .ok l) => ih (fun kf hk => h kf (.tail _ hk)) e
    split at e
    · cases h1 : f.filler.bind d with
      | error x => rw [h1] at e; cases e
      | ok g =>
        rw [h1] at e
        simp only at e
        cases h2 : bindFields c d fs with
        | error x => rw [h2] at e; cases e
        | ok l =>
          rw [h2] at e; cases e
          intro kf hkf
          cases hkf with
          | head => exact ⟨hf.1.bind hW h1, hf.2⟩
          | tail _ hkf => exact hr h2 kf hkf
    · cases h2 : bindFields c d fs with
      | error x => rw [h2] at e; cases e
      | ok l =>
        rw [h2] at e; cases e
        intro kf hkf
        cases hkf with
        | head => exact hf
        | tail _ hkf => exact hr h2 kf hkf

theorem hints_mem {sp : ClassSpec W} {a : String × FHint W} (h : a ∈ sp.hints) : a ∈ sp.anns := by
  unfold ClassSpec.hints at h
  rcases List.mem_append.1 h with h | h
  · obtain ⟨n, _, h2⟩ := List.mem_filterMap.1 h
    cases h3 : Dict.get? sp.anns n with
    | none => rw [h3] at h2; cases h2
    | some t => rw [h3] at h2; cases h2; exact Dict.mem_of_get? h3
  · exact (List.mem_filter.1 h).1

theorem mkClass_rep (hW : W.Reports p) {sp : ClassSpec W} {C : RecClass W} (h : sp.Reports p) (hp : ∀ q ∈ sp.parents, q.Rep p)
    (e : mkClass sp = .ok C) : C.Rep p := by
  unfold mkClass at e
  cases h1 : ownFields sp sp.hints with
  | error x => rw [h1] at e; cases e
  | ok own =>
    rw [h1] at e
    simp only at e
    cases h2 : inheritedFields own sp.parents [] with
    | error x => rw [h2] at e; cases e
    | ok inh =>
      rw [h2] at e
      simp only at e
      have ho := ownFields_rep h (fun a ha => h.anns a (hints_mem ha)) h1
      have hi := inheritedFields_rep (acc := []) hp (fun _ h => by cases h) h2
      have ha : FieldsRep p (if inh.isEmpty then own else inh.update own) := by
        split
        · exact ho
        · intro kf hkf
          rcases Dict.mem_update hkf with hk | hk
          · exact hi kf hk
          · exact ho kf hk
      generalize (if inh.isEmpty then own else inh.update own) = all at e ha
      split at e
      · cases e
      · cases h3 : preBind sp.pre all with
        | error x => rw [h3] at e; cases e
        | ok all1 =>
          rw [h3] at e
          simp only at e
          cases h4 : bindFields sp.cid sp.style all1 with
          | error x => rw [h4] at e; cases e
          | ok all2 =>
            rw [h4] at e; cases e
            exact ⟨bindFields_rep hW (preBind_rep h.pre ha h3) h4, h.parsers, h.postNew⟩

theorem Reporting.rep (hW : W.Reports p) {C : RecClass W} (h : Reporting p C) : C.Rep p := by
  induction h with
  | intro sp C h1 _ e ih => exact mkClass_rep hW h1 ih e

/-! ### construction, parsing, factories -/

theorem Reports.fillLoop (E : Env W) {fields : Dict (Field W)} (h : FieldsRep p fields) (standby : Option (Res W))
    (kw values : Dict W.Obj) : Reports p (fillLoop E fields standby kw values) := by
  induction kw generalizing values with
  | nil => exact .pure _
  | cons a kw ih =>
    obtain ⟨k, v⟩ := a
    apply Reports.of
    intro s r s' hx hs e he
    cases hf : fields.get? k with
    | none => simp only [Records.fillLoop, hf] at hx; cases hx; rw [hs] at he; cases he
    | some f =>
      have hc := ((h _ (Dict.mem_of_get? hf)).1).call v
      rcases h1 : f.filler.call v s with ⟨r1, s1⟩
      simp only [Records.fillLoop, hf, h1] at hx
      cases r1 with
      | ok w =>
        have hn := hc.ok h1 hs
        simp only at hx
        have := ih (values.set k w) s1 hn e (by rw [hx]; exact he); rw [hx] at this; exact this
      | error e1 =>
        simp only at hx
        split at hx
        · cases hx
          obtain ⟨h2, h3⟩ := hc.err h1 hs he
          exact ⟨by rw [h2], h3⟩
        · rename_i hb
          have hn := hc.exc h1 hs (by simpa using hb)
          split at hx
          · cases hx; rw [hn] at he; cases he
          · cases hx; rw [hn] at he; cases he

theorem Deflt.Reports.make {d : Deflt W} (h : d.Reports p) : Records.Reports p d.make := by
  cases d with
  | value v => exact .pure _
  | factory f => exact h

theorem Reports.defaultLoop {fields : Dict (Field W)} (h : FieldsRep p fields) (ks : List String) (values : Dict W.Obj) :
    Reports p (defaultLoop fields ks values) := by
  induction ks generalizing values with
  | nil => exact .pure _
  | cons k ks ih =>
    rw [Records.defaultLoop]
    cases hf : fields.get? k with
    | none => exact .throw _
    | some f =>
      simp only [Option.bind]
      cases hd : f.default with
      | none => exact .throw _
      | some d => exact .bind ((h _ (Dict.mem_of_get? hf)).2 d hd).make fun v => ih _

theorem Reports.finishNew {C : RecClass W} (h : C.Rep p) (standby : Option (Res W)) (i : Inst W) :
    Reports p (finishNew C standby i) := by
  have hc := h.postNew i
  apply Reports.of
  intro s r s' hx hs e he
  rcases h1 : C.postNew i s with ⟨r1, s1⟩
  simp only [Records.finishNew, h1] at hx
  cases r1 with
  | ok w =>
    obtain ⟨i', o⟩ := w
    have hn := hc.ok h1 hs
    simp only at hx
    split at hx
    · cases hx; rw [hn] at he; cases he
    · cases hx; rw [hn] at he; cases he
  | error e1 =>
    simp only at hx
    split at hx
    · cases hx
      obtain ⟨h2, h3⟩ := hc.err h1 hs he
      exact ⟨by rw [h2], h3⟩
    · rename_i hb
      have hn := hc.exc h1 hs (by simpa using hb)
      split at hx
      · split at hx
        · cases hx; rw [hn] at he; cases he
        · cases hx; rw [hn] at he; cases he
      · cases hx; rw [hn] at he; cases he

theorem Reports.newFields (E : Env W) {C : RecClass W} (h : C.Rep p) (standby : Option (Res W)) (kw : Dict W.Obj) :
    Reports p (newFields E C standby kw) := by
  unfold Records.newFields
  refine .ite (fun _ => .throw _) fun _ => .bind (.fillLoop E h.fields _ _ _) fun r => ?_
  cases r with
  | inl r => exact .pure _
  | inr values =>
    exact .ite (fun _ => .throw _) fun _ => .bind (.defaultLoop h.fields _ _) fun _ => .finishNew h _ _

theorem Reports.tryParse (C : RecClass W) {parse : W.Obj → M W (Res W)} (hp : ∀ v, Reports p (parse v)) (a : W.Obj)
    (kw : Dict W.Obj) : Reports p (tryParse C parse a kw) := by
  unfold Records.tryParse
  refine .ite (fun _ => ?_) fun _ => .pure _
  have hc := hp a
  apply Reports.of
  intro s r s' hx hs e he
  rcases h1 : parse a s with ⟨r1, s1⟩
  simp only [h1] at hx
  cases r1 with
  | ok w => have hn := hc.ok h1 hs; cases hx; rw [hn] at he; cases he
  | error e1 =>
    simp only at hx
    split at hx
    · rename_i hb
      have hn := hc.exc h1 hs (by unfold Exc.isException; rw [hb.1])
      cases hx; rw [hn] at he; cases he
    · cases hx
      obtain ⟨h2, h3⟩ := hc.err h1 hs he
      exact ⟨by rw [h2], h3⟩

theorem Reports.construct (E : Env W) {C : RecClass W} (h : C.Rep p) {parse : W.Obj → M W (Res W)}
    (hp : ∀ v, Reports p (parse v)) (arg : Option W.Obj) (kw : Dict W.Obj) : Reports p (construct E C parse arg kw) := by
  unfold Records.construct
  cases arg with
  | none => exact .newFields E h _ _
  | some a =>
    refine .bind (.tryParse C hp a kw) fun standby => ?_
    split
    · exact .ite (fun _ => .throw _) fun _ => .newFields E h _ _
    · split
      · exact .pure _
      · exact .throw _

theorem Reports.callCls (C : RecClass W) {new : Option W.Obj → Dict W.Obj → M W (Res W)} (h : ∀ a kw, Reports p (new a kw))
    (arg : Option W.Obj) (kw : Dict W.Obj) : Reports p (callCls C new arg kw) := by
  have init : ∀ r, Reports p (callCls.init C kw r) := fun r => by
    unfold callCls.init; exact .ite (fun _ => .throw _) fun _ => .pure _
  unfold Records.callCls
  refine .ite (fun _ => .throw _) fun _ => ?_
  split
  · exact .throw _
  · exact .bind (h _ _) init
  · exact .bind (h _ _) init

theorem Reports.exportTuples {obj : Carrier W} (ho : ∀ n, Reports p (obj.attr n)) (o : ExportOpts) (missing : List String)
    {xs : List (XField W)} (hx : ∀ f ∈ xs, ∀ d, f.default = some d → d.Reports p) :
    Reports p (exportTuples obj o missing xs) := by
  induction xs with
  | nil => exact .pure _
  | cons f fs ih =>
    have ih' := ih fun f hf => hx f (.tail _ hf)
    have hc := ho f.name
    apply Reports.of
    intro s r s' hr hs e he
    have fin : ∀ {s1 : LState W} {y : M W (List (String × W.Obj))}, Reports p y → p s1.user = none → y s1 = (r, s') →
        r = .error e ∧ e.isException = false := by
      intro s1 y hy hn h
      have := hy s1 hn e (by rw [h]; exact he); rw [h] at this; exact this
    unfold Records.exportTuples at hr
    split at hr
    · cases hr; rw [hs] at he; cases he
    · exact fin ih' hs hr
    · rcases h1 : obj.attr f.name s with ⟨r1, s1⟩
      simp only [h1] at hr
      cases r1 with
      | ok v =>
        have hn := hc.ok h1 hs
        simp only at hr
        split at hr
        · exact fin (.bind ih' fun _ => .pure _) hn hr
        · exact fin ih' hn hr
      | error e1 =>
        simp only at hr
        split at hr
        · cases hr
          obtain ⟨h2, h3⟩ := hc.err h1 hs he
          exact ⟨by rw [h2], h3⟩
        · rename_i hb
          have hn := hc.exc h1 hs (by unfold Exc.isException; rw [Classical.not_not.1 hb])
          split at hr
          · cases hr; rw [hn] at he; cases he
          · split at hr
            · rename_i d hd
              exact fin (.bind (hx f (.head _) _ hd).make fun _ => .bind ih' fun _ => .pure _) hn hr
            · exact fin ih' hn hr

theorem extraction_rep {C : RecClass W} (h : C.Rep p) (sel : Sel W.Obj) :
    ∀ f ∈ (extraction C sel).2.values, ∀ d, f.default = some d → d.Reports p := by
  have P0 : ∀ kf ∈ (C.fields.map fun kf => (kf.1, kf.2.x) : Dict (XField W)), ∀ d, kf.2.default = some d → d.Reports p := by
    intro kf hkf d hd
    obtain ⟨a, ha, rfl⟩ := List.mem_map.1 hkf
    exact (h.fields a ha).2 d hd
  have setMock : ∀ (x : Dict (XField W)) k, (∀ kf ∈ x, ∀ d, kf.2.default = some d → d.Reports p) →
      ∀ kf ∈ x.set k (mockField k), ∀ d, kf.2.default = some d → d.Reports p := by
    intro x k hx kf hkf d hd
    rcases Dict.mem_set hkf with hk | hk
    · exact hx kf hk d hd
    · subst hk; cases hd
  have fold : ∀ {β : Type} (g : Dict (XField W) → β → Dict (XField W)) (l : List β) (x : Dict (XField W)),
      (∀ x b, (∀ kf ∈ x, ∀ d, kf.2.default = some d → d.Reports p) → ∀ kf ∈ g x b, ∀ d, kf.2.default = some d → d.Reports p) →
      (∀ kf ∈ x, ∀ d, kf.2.default = some d → d.Reports p) →
      ∀ kf ∈ l.foldl g x, ∀ d, kf.2.default = some d → d.Reports p := by
    intro β g l
    induction l with
    | nil => intro x _ hx; exact hx
    | cons b l ih => intro x hg hx; exact ih (g x b) hg (hg x b hx)
  have erase : ∀ (x : Dict (XField W)) k, ∀ kf ∈ x.erase k, kf ∈ x := by
    intro x k
    induction x with
    | nil => intro kf hk; exact hk
    | cons a x ih =>
      obtain ⟨k', v'⟩ := a
      intro kf hk
      rw [Dict.erase] at hk
      split at hk
      · exact .tail _ hk
      · cases hk with
        | head => exact .head _
        | tail _ hk => exact .tail _ (ih kf hk)
  suffices ∀ kf ∈ (extraction C sel).2, ∀ d, kf.2.default = some d → d.Reports p by
    intro f hf
    obtain ⟨kf, hkf, rfl⟩ := List.mem_map.1 hf
    exact this kf hkf
  unfold extraction
  simp only
  split
  · exact P0
  · refine fold _ _ _ (fun x b hx kf hk => hx kf (erase x _ kf hk)) ?_
    refine fold _ _ _ (fun x b hx => setMock x _ hx) ?_
    refine fold _ _ _ (fun x b hx => setMock x _ hx) ?_
    refine fold _ _ _ (fun x b hx => ?_) P0
    split
    · exact hx
    · exact setMock x _ hx

theorem Reports.toDict {C : RecClass W} (h : C.Rep p) {obj : Carrier W} (ho : ∀ n, Reports p (obj.attr n)) (o : ExportOpts)
    (sel : Sel W.Obj) : Reports p (toDict C obj o sel) := by
  unfold Records.toDict
  exact .bind (.generator (.exportTuples ho _ _ (extraction_rep h sel))) fun _ => .pure _

theorem Reports.buildFrom {call : Dict W.Obj → M W (Res W)} (h : ∀ m, Reports p (call m)) (sel : Sel W.Obj) (m : Dict W.Obj) :
    Reports p (buildFrom call sel m) := by
  unfold Records.buildFrom
  split
  · exact .throw _
  · exact h _

theorem Reports.fromMapping {call : Dict W.Obj → M W (Res W)} (h : ∀ m, Reports p (call m)) (sel : Sel W.Obj)
    (maps : List (Dict W.Obj)) (kw : Dict W.Obj) : Reports p (fromMapping call sel maps kw) := by
  unfold Records.fromMapping
  exact .ite (fun _ => .throw _) fun _ => .buildFrom h _ _

theorem Reports.fromInstance {C : RecClass W} (hC : C.Rep p) {call : Dict W.Obj → M W (Res W)} (h : ∀ m, Reports p (call m))
    (sel : Sel W.Obj) {v : Carrier W} (hv : ∀ n, Reports p (v.attr n)) (maps : List (Dict W.Obj)) (kw : Dict W.Obj) :
    Reports p (fromInstance C call sel v maps kw) := by
  unfold Records.fromInstance
  refine .ite (fun _ => .throw _) fun _ => .ite (fun _ => .pure _) fun _ => .bind (.toDict hC hv _ _) fun d => ?_
  split
  · exact .bind (.buildFrom h _ _) fun _ => .pure _
  · exact .bind (.buildFrom h _ _) fun _ => .pure _
  · exact .throw _

theorem Reports.fromJson {E : Env W} (hE : E.Reports p) {call : Dict W.Obj → M W (Res W)} (h : ∀ m, Reports p (call m))
    (sel : Sel W.Obj) (v : W.Obj) (kw : Dict W.Obj) : Reports p (fromJson E call sel v kw) := by
  unfold Records.fromJson
  refine .ite (fun _ => .throw _) fun _ => .bind (hE.jsonLoads v kw) fun j => ?_
  exact .bind (.ite (fun _ => hE.dictView j) fun _ => hE.starView j) fun _ => .buildFrom h _ _

theorem Parser.Reports.run {E : Env W} (hE : E.Reports p) {C : RecClass W} (hC : C.Rep p) {call : Dict W.Obj → M W (Res W)}
    (h : ∀ m, Records.Reports p (call m)) (v : W.Obj) {q : Parser W} (hq : q.Reports p) :
    Records.Reports p (q.run E C call v) := by
  cases q with
  | fromMapping => exact .bind (hE.chainView v) fun _ => .fromMapping h _ _ _
  | fromInstance => exact .bind (.fromInstance hC h _ (fun n => hE.getattr v n) _ _) fun _ => .pure _
  | fromJson => exact .fromJson hE h _ _ _
  | user f => exact hq v

theorem Reports.parseLoop {E : Env W} (hE : E.Reports p) {C : RecClass W} (hC : C.Rep p) {call : Dict W.Obj → M W (Res W)}
    (h : ∀ m, Reports p (call m)) (v : W.Obj) {ps : List (Parser W)} (hp : ∀ q ∈ ps, q.Reports p) (succ : List (Res W)) :
    Reports p (parseLoop E C call v ps succ) := by
  induction ps generalizing succ with
  | nil => exact .pure _
  | cons q ps ih =>
    have hc := (hp q (.head _)).run hE hC h v
    have ih' := fun l => ih (fun q hq => hp q (.tail _ hq)) l
    apply Reports.of
    intro s r s' hx hs e he
    rcases h1 : q.run E C call v s with ⟨r1, s1⟩
    simp only [Records.parseLoop, h1] at hx
    cases r1 with
    | ok w =>
      have hn := hc.ok h1 hs
      simp only at hx
      have := ih' _ s1 hn e (by rw [hx]; exact he); rw [hx] at this; exact this
    | error e1 =>
      simp only at hx
      split at hx
      · rename_i hb
        have hn := hc.exc h1 hs hb
        have := ih' _ s1 hn e (by rw [hx]; exact he); rw [hx] at this; exact this
      · cases hx
        obtain ⟨h2, h3⟩ := hc.err h1 hs he
        exact ⟨by rw [h2], h3⟩

theorem Reports.parseWith {E : Env W} (hE : E.Reports p) {C : RecClass W} (hC : C.Rep p) {call : Dict W.Obj → M W (Res W)}
    (h : ∀ m, Reports p (call m)) (v : W.Obj) : Reports p (parseWith E C call v) := by
  unfold Records.parseWith
  refine .bind (.parseLoop hE hC h v hC.parsers _) fun succ => ?_
  split
  · exact .throw _
  · exact .pure _
  · exact .throw _

theorem Reports.callN {E : Env W} (hE : E.Reports p) {C : RecClass W} (hC : C.Rep p) (n : Nat) (arg : Option W.Obj)
    (kw : Dict W.Obj) : Reports p (callN E C n arg kw) := by
  induction n generalizing arg kw with
  | zero => exact .throw _
  | succ n ih =>
    exact .callCls C (fun a kw => .construct E hC (fun v => .parseWith hE hC (fun m => ih none m) v) a kw) arg kw

theorem Reports.parseN {E : Env W} (hE : E.Reports p) {C : RecClass W} (hC : C.Rep p) (n : Nat) (v : W.Obj) :
    Reports p (parseN E C n v) :=
  .parseWith hE hC (fun m => .callN hE hC n none m) v

end Records

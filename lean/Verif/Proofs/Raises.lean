import Verif.Spec.Raises
import Verif.Proofs.Honest
import Verif.Proofs.ClassMore
/-
Which exceptions leave the library, given the exceptions its callbacks raise.
-/
set_option linter.unusedSimpArgs false
set_option linter.unusedSectionVars false
namespace Records
variable {W : World} {α β : Type} {Q : ExcKind → Prop}

/-! ### the monad -/

theorem Only.mono {Q' : ExcKind → Prop} {x : M W α} (h : Only Q x) (hq : ∀ k, Q k → Q' k) : Only Q' x :=
  fun s e s' hx => hq _ (h s e s' hx)

theorem Only.pure (a : α) : Only Q (M.pure a : M W α) := by intro s e s' h; cases h

theorem Only.throw {e : Exc} (h : Q e.kind) : Only Q (M.throw e : M W α) := by intro s e' s' hx; cases hx; exact h

theorem Only.ofExcept {r : Except Exc α} (h : ∀ e, r = .error e → Q e.kind) : Only Q (M.ofExcept r : M W α) := by
  cases r with
  | error e => exact .throw (h e rfl)
  | ok a => exact .pure a

theorem Only.generator [OwnErrors Q] {x : M W α} (hx : Only Q x) : Only Q (M.generator x) := by
  intro s e s' h
  obtain ⟨e', h1, rfl⟩ := M.generator_eq_error h
  have hq := hx s e' s' h1
  unfold Exc.leaving
  split
  · next hk => rw [hk] at hq; exact OwnErrors.generator hq
  · exact hq

theorem Only.bind {x : M W α} {f : α → M W β} (hx : Only Q x) (hf : ∀ a, Only Q (f a)) : Only Q (M.bind x f) := by
  intro s e s' h
  rcases h1 : x s with ⟨r, s1⟩
  cases r with
  | ok a =>
    have hb : M.bind x f s = f a s1 := by unfold M.bind; rw [h1]
    rw [hb] at h
    exact hf a s1 e s' h
  | error e1 =>
    have hb : M.bind x f s = (.error e1, s1) := by unfold M.bind; rw [h1]
    rw [hb] at h
    cases h
    exact hx s _ _ h1

theorem Only.foldM {f : β → α → M W α} {l : List β} (hf : ∀ b ∈ l, ∀ a, Only Q (f b a)) (a : α) :
    Only Q (M.foldM f l a) := by
  induction l generalizing a with
  | nil => exact .pure _
  | cons b l ih =>
    exact .bind (hf b (.head _) a) fun a => ih (fun b hb => hf b (.tail _ hb)) a

theorem Only.mapM {f : β → M W α} {l : List β} (hf : ∀ b ∈ l, Only Q (f b)) : Only Q (M.mapM f l) := by
  induction l with
  | nil => exact .pure _
  | cons b l ih =>
    exact .bind (hf b (.head _)) fun a => .bind (ih fun b hb => hf b (.tail _ hb)) fun _ => .pure _

theorem Only.ite {c : Prop} [Decidable c] {x y : M W α} (hx : c → Only Q x) (hy : ¬ c → Only Q y) :
    Only Q (if c then x else y) := by
  by_cases h : c
  · rw [if_pos h]; exact hx h
  · rw [if_neg h]; exact hy h

/-! ### larger sets -/

section mono
variable {Q' : ExcKind → Prop} (hq : ∀ k, Q k → Q' k)
include hq

theorem OnlyBase.mono {x : M W α} (h : OnlyBase Q x) : OnlyBase Q' x :=
  fun s e s' hx => (h s e s' hx).imp id (hq _)

theorem World.Only.mono (h : W.Only Q) : W.Only Q' :=
  ⟨fun c l => (h.mkIter c l).mono hq, fun c l m => (h.mkDeque c l m).mono hq, fun c l => (h.mkMap c l).mono hq,
    fun c d l => (h.mkDefaultDict c d l).mono hq⟩

mutual
theorem CTok.Only.mono {t : CTok W} (h : t.Only Q) : t.Only Q' := by
  match t with
  | .coercer f => rw [CTok.Only] at h ⊢; exact fun o c hc v => (h o c hc v).mono hq
  | .fromInteger => rw [CTok.Only]; trivial
  | .notToken => rw [CTok.Only]; trivial
  | .compose ts => rw [CTok.Only] at h ⊢; exact CTok.OnlyL.mono h
theorem CTok.OnlyL.mono {ts : List (CTok W)} (h : CTok.OnlyL Q ts) : CTok.OnlyL Q' ts := by
  match ts with
  | [] => rw [CTok.OnlyL]; trivial
  | t :: ts => rw [CTok.OnlyL] at h ⊢; exact ⟨CTok.Only.mono h.1, CTok.OnlyL.mono h.2⟩
end

theorem Tok.Only.mono {t : Tok W} (h : t.Only Q) : t.Only Q' := by
  cases t with
  | coercion t => exact CTok.Only.mono hq (t := t) h
  | validation f => exact fun o c hc v => (h o c hc v).mono hq
  | _ => trivial

mutual
theorem Hint.Only.mono {h : Hint W} (hh : h.Only Q) : h.Only Q' := by
  match h with
  | .newType h | .tupleVar h | .iter _ h | .deque _ h => rw [Hint.Only] at hh ⊢; exact Hint.Only.mono hh
  | .union hs => rw [Hint.Only] at hh ⊢; exact ⟨hh.1, Hint.OnlyL.mono hh.2⟩
  | .tupleFix hs | .generic _ hs => rw [Hint.Only] at hh ⊢; exact Hint.OnlyL.mono hh
  | .mapping _ k v | .defaultdict _ k v => rw [Hint.Only] at hh ⊢; exact ⟨Hint.Only.mono hh.1, Hint.Only.mono hh.2⟩
  | .annotated h toks => rw [Hint.Only] at hh ⊢; exact ⟨Hint.Only.mono hh.1, fun t ht => (hh.2 t ht).mono hq⟩
  | .cls _ | .none | .any | .callable | .literal _ _ | .typeBare | .typeOf _ | .bareGeneric _ | .opaque =>
    rw [Hint.Only] <;> first | trivial | nofun
theorem Hint.OnlyL.mono {hs : List (Hint W)} (hh : Hint.OnlyL Q hs) : Hint.OnlyL Q' hs := by
  match hs with
  | [] => rw [Hint.OnlyL]; trivial
  | h :: hs => rw [Hint.OnlyL] at hh ⊢; exact ⟨Hint.Only.mono hh.1, Hint.OnlyL.mono hh.2⟩
end

theorem FHint.Only.mono {h : FHint W} (hh : h.Only Q) : h.Only Q' := by
  cases h with
  | plain h => exact Hint.Only.mono hq (h := h) hh
  | final h toks => exact Hint.Only.mono hq (h := h) hh
  | _ => trivial

theorem Deflt.Only.mono {d : Deflt W} (h : d.Only Q) : d.Only Q' := by
  cases d with
  | value v => trivial
  | factory f => exact Records.Only.mono h hq

theorem Parser.Only.mono {p : Parser W} (h : p.Only Q) : p.Only Q' := by
  cases p with
  | user f => exact fun v => (h v).mono hq
  | _ => trivial

theorem ClassSpec.Only.mono {sp : ClassSpec W} (h : sp.Only Q) : sp.Only Q' :=
  ⟨h.style, fun a ha => (h.anns a ha).mono hq, fun a ha => (h.attrs a ha).mono hq, fun n d hd => (h.mroAttrs n d hd).mono hq,
    fun q hm => (h.pre q hm).mono hq, fun q hm => (h.parsers q hm).mono hq, fun i => (h.postNew i).mono hq⟩

theorem RaisesOnly.mono {C : RecClass W} (h : RaisesOnly Q C) : RaisesOnly Q' C := by
  induction h with
  | intro sp C ok h1 _ e ih => exact .intro sp C ok (h1.mono hq) ih e

theorem Env.Only.mono {E : Env W} (h : E.Only Q) : E.Only Q' :=
  ⟨fun v n => (h.getattr v n).mono hq, fun v => (h.chainView v).mono hq, fun v => (h.starView v).mono hq,
    fun v kw => (h.jsonLoads v kw).mono hq, fun n e hr => hq _ (h.rewrap n e hr)⟩

end mono

/-! ### what the library raises -/

variable [hQ : OwnErrors Q]

theorem Only.tE : Only Q (M.throw .typeError : M W α) := .throw hQ.typeError

theorem Only.vE : Only Q (M.throw .valueError : M W α) := .throw hQ.valueError

/-! ### coercion tokens -/

theorem Only.composeRun {fs : List (Coercer W)} (h : ∀ f ∈ fs, ∀ v, Only Q (f v)) (v : W.Obj) :
    Only Q (composeRun fs v) :=
  .foldM (fun f hf v => h f (List.mem_reverse.1 hf) v) v

theorem Only.boolFromInt (v : W.Obj) : Only Q (boolFromInt v) := by
  unfold Records.boolFromInt
  exact .ite (fun _ => .pure _) fun _ => .ite (fun _ => .pure _) fun _ => .tE

mutual
theorem getCoercer_only (b : Bool) (o : Option W.Cls) (t : CTok W) (ht : t.Only Q) (c : Coercer W)
    (h : getCoercer b o t = .ok c) (v : W.Obj) : Only Q (c v) := by
  match t with
  | .coercer f => rw [getCoercer] at h; rw [CTok.Only] at ht; exact ht o c h v
  | .fromInteger =>
    rw [getCoercer] at h
    by_cases hb : b = true
    · rw [if_pos hb] at h; cases h; exact .boolFromInt v
    · rw [if_neg hb] at h; cases h
  | .notToken => rw [getCoercer] at h; cases h
  | .compose ts =>
    rw [getCoercer] at h; rw [CTok.Only] at ht
    cases hfs : getCoercers b o ts with
    | error e => rw [hfs] at h; cases h
    | ok fs => rw [hfs] at h; cases h; exact .composeRun (getCoercers_only b o ts ht fs hfs) v
theorem getCoercers_only (b : Bool) (o : Option W.Cls) (ts : List (CTok W)) (ht : CTok.OnlyL Q ts)
    (fs : List (Coercer W)) (h : getCoercers b o ts = .ok fs) : ∀ f ∈ fs, ∀ v, Only Q (f v) := by
  match ts with
  | [] => rw [getCoercers] at h; cases h; nofun
  | t :: ts =>
    rw [getCoercers] at h; rw [CTok.OnlyL] at ht
    cases hf : getCoercer b o t with
    | error e => rw [hf] at h; cases h
    | ok f =>
      cases hfs : getCoercers b o ts with
      | error e => rw [hf, hfs] at h; cases h
      | ok fs' =>
        rw [hf, hfs] at h; cases h
        intro g hg v
        cases hg with
        | head => exact getCoercer_only b o t ht.1 f hf v
        | tail _ hg => exact getCoercers_only b o ts ht.2 fs' hfs g hg v
end

/-! ### annotated fillers -/

/-- the callbacks of an annotated filler raise only `Q`, and once bound it has a style -/
structure Ann.Src (Q : ExcKind → Prop) (a : Ann W) : Prop where
  style : a.bound = true → a.style ≠ .default
  args : ∀ t ∈ a.args, t.Only Q
  coercers : ∀ c ∈ a.coercers, ∀ v, Only Q (c v)
  validators : ∀ c ∈ a.validators, ∀ v, Only Q (c v)

theorem Ann.Src.apply {a a' : Ann W} (h : a.Src Q) {t : Tok W} (ht : t.Only Q) (e : a.apply t = .ok a') : a'.Src Q := by
  unfold Ann.apply at e
  by_cases hb : a.bound = true
  · rw [if_pos hb] at e; cases e
  · rw [if_neg hb] at e
    cases t with
    | style s => cases e; exact ⟨fun hb' => absurd hb' hb, h.2, h.3, h.4⟩
    | coercion ct =>
      simp only at e
      cases hc : getCoercer a.kind.isBool a.kind.origin ct with
      | error x => rw [hc] at e; cases e
      | ok c =>
        rw [hc] at e; cases e
        refine ⟨h.1, h.2, ?_, h.4⟩
        intro d hd v
        rcases List.mem_append.1 hd with hd | hd
        · exact h.3 d hd v
        · cases List.mem_singleton.1 hd; exact getCoercer_only _ _ ct ht c hc v
    | validation f =>
      simp only at e
      cases hc : f a.kind.origin with
      | error x => rw [hc] at e; cases e
      | ok c =>
        rw [hc] at e; cases e
        refine ⟨h.1, h.2, h.3, ?_⟩
        intro d hd v
        rcases List.mem_append.1 hd with hd | hd
        · exact h.4 d hd v
        · cases List.mem_singleton.1 hd; exact ht _ c hc v
    | raises x => cases e
    | tag n => cases e; exact h
    | other => cases e; exact h

theorem Ann.Src.applyAll {a a' : Ann W} (h : a.Src Q) {ts : List (Tok W)} (ht : ∀ t ∈ ts, t.Only Q)
    (e : a.applyAll ts = .ok a') : a'.Src Q := by
  induction ts generalizing a with
  | nil => cases e; exact h
  | cons t ts ih =>
    rw [Ann.applyAll] at e
    cases h1 : a.apply t with
    | error x => rw [h1] at e; cases e
    | ok a1 =>
      rw [h1] at e
      exact ih (h.apply (ht t (.head _)) h1) (fun t hm => ht t (.tail _ hm)) e

theorem Ann.Src.addValidator {a : Ann W} (h : a.Src Q) {f : Coercer W} (hf : ∀ v, Only Q (f v)) :
    (a.addValidator f).Src Q := by
  refine ⟨h.1, h.2, h.3, ?_⟩
  intro c hc v
  rcases List.mem_append.1 hc with hc | hc
  · exact h.4 c hc v
  · cases List.mem_singleton.1 hc; exact hf v

theorem Only.literalValidator (id : Nat) (vals : List W.Obj) (v : W.Obj) : Only Q (literalValidator id vals v) := by
  intro s e s' h
  unfold Records.literalValidator at h
  simp only at h
  repeat' split at h
  all_goals cases h
  all_goals first | exact hQ.typeError | exact hQ.valueError

theorem Ann.Src.bind {a a' : Ann W} (h : a.Src Q) {d : Style} (hd : d ≠ .default) (e : a.bind d = .ok a') : a'.Src Q := by
  unfold Ann.bind at e
  cases h1 : a.applyAll a.args with
  | error x => rw [h1] at e; cases e
  | ok a1 =>
    rw [h1] at e
    have r1 := h.applyAll h.2 h1
    simp only at e
    cases h2 : a1.bindBase d with
    | error x => rw [h2] at e; cases e
    | ok a2 =>
      rw [h2] at e
      simp only at e
      have r2 : a2.Src Q := by
        unfold Ann.bindBase at h2
        by_cases hb : a1.bound = true
        · rw [if_pos hb] at h2; cases h2
        · rw [if_neg hb] at h2
          have hst : (if a1.style = Style.default then d else a1.style) ≠ .default := by
            split
            · exact hd
            · assumption
          simp only at h2
          generalize (if a1.style = Style.default then d else a1.style) = st at h2 hst
          split at h2
          · cases h2
          · cases h2; exact ⟨fun _ => hst, r1.2, r1.3, r1.4⟩
      unfold Ann.bindKind at e
      split at e
      · split at e
        · cases e
        · cases e; exact r2
      · split at e
        · cases e
        · cases e; exact r2
      · split at e
        · cases e
        · cases e; exact r2
      · cases e; exact r2
      · split at e
        · cases e; exact r2
        · cases e; exact r2.addValidator (.literalValidator _ _)

theorem Only.coerceLoop (k : Kind W) (st : Style) {cs : List (Coercer W)} (h : ∀ c ∈ cs, ∀ v, Only Q (c v))
    (v : W.Obj) : Only Q (coerceLoop k st cs v) := by
  induction cs generalizing v with
  | nil => exact .pure _
  | cons c cs ih =>
    have hc := h c (.head _) v
    have ih' := fun w => ih (fun c hc => h c (.tail _ hc)) w
    intro s e s' hx
    rcases h1 : c v s with ⟨r1, s1⟩
    simp only [Records.coerceLoop, h1] at hx
    cases r1 with
    | ok w =>
      simp only at hx
      split at hx
      · split at hx
        · cases hx; exact hQ.typeError
        · exact ih' w s1 e s' hx
      · cases hx
    | error e1 =>
      simp only at hx
      split at hx
      · split at hx
        · cases hx; exact hc s _ _ h1
        · exact ih' v s1 e s' hx
      · cases hx; exact hc s _ _ h1

theorem Only.validate {vs : List (Coercer W)} (h : ∀ c ∈ vs, ∀ v, Only Q (c v)) (v : W.Obj) (k : TPK) :
    Only Q (validate vs v k) :=
  .bind (.foldM (fun f hf v => h f hf v) v) fun _ => .pure _

theorem Ann.Src.fill {a : Ann W} (h : a.Src Q) (hb : a.bound = true) (v : W.Obj) : Only Q (a.fill v) := by
  have main : ∀ st, Only Q (fun s =>
      let tc := a.kind.typeCheck v s
      if tc = .exact then Records.validate a.validators v .noCoerceStrict s
      else if tc = .inexact ∧ st = Style.check then Records.validate a.validators v .noCoerce s
      else if a.coercers.isEmpty then (.error .typeError, s)
      else M.bind (Records.coerceLoop a.kind st a.coercers v) (fun w => Records.validate a.validators w .coerce) s) := by
    intro st s e s' he
    simp only at he
    split at he
    · exact Only.validate h.4 v _ s e s' he
    · split at he
      · exact Only.validate h.4 v _ s e s' he
      · split at he
        · cases he; exact hQ.typeError
        · exact (Only.bind (.coerceLoop _ _ h.3 v) fun w => .validate h.4 w _) s e s' he
  have hs := h.1 hb
  unfold Ann.fill
  cases hst : a.style with
  | default => exact absurd hst hs
  | hollow => exact .validate h.4 v _
  | check => exact main .check
  | checkStrict => exact main .checkStrict

theorem Ann.Src.call {a : Ann W} (h : a.Src Q) (hb : a.bound = true) (v : W.Obj) : Only Q (a.call v) := by
  unfold Ann.call
  exact .ite (fun _ => .pure _) fun _ => .bind (h.fill hb v) fun _ => .pure _

/-! ### unions and containers -/

theorem Only.unionLoop (v : W.Obj) {fs : List (W.Obj → M W (W.Obj × TPK))} (h : ∀ f ∈ fs, Only Q (f v))
    (best : List W.Obj) (key : Option TPK) (hk : (∃ b bs k, best = b :: bs ∧ key = some k) ∨ best = [] ∧ key = none ∧ fs ≠ []) :
    Only Q (unionLoop v fs best key) := by
  induction fs generalizing best key with
  | nil =>
    obtain ⟨b, bs, k, rfl, rfl⟩ | ⟨_, _, h⟩ := hk
    · exact .ite (fun _ => .vE) fun _ => .pure _
    · exact absurd rfl h
  | cons f fs ih =>
    have hf := h f (.head _)
    have ih' := fun b k => ih (fun c hc => h c (.tail _ hc)) b k
    intro s e s' hx
    rcases h1 : f v s with ⟨r1, s1⟩
    simp only [Records.unionLoop, h1] at hx
    cases r1 with
    | ok w =>
      obtain ⟨x, k⟩ := w
      simp only at hx
      split at hx
      · exact ih' _ _ (.inl ⟨x, [], k, rfl, rfl⟩) s1 e s' hx
      · rename_i bk
        split at hx
        · exact ih' _ _ (.inl ⟨x, [], k, rfl, rfl⟩) s1 e s' hx
        · obtain ⟨b, bs, k', rfl, hk'⟩ | ⟨_, hk', _⟩ := hk
          · split at hx
            · exact ih' _ _ (.inl ⟨b, bs ++ [x], bk, rfl, rfl⟩) s1 e s' hx
            · exact ih' _ _ (.inl ⟨b, bs, bk, rfl, rfl⟩) s1 e s' hx
          · cases hk'
    | error e1 =>
      simp only at hx
      split at hx
      · cases hx; exact hf s _ _ h1
      · split at hx
        · cases hx; exact hf s _ _ h1
        · rename_i hne
          refine ih' _ _ ?_ s1 e s' hx
          obtain hk | ⟨rfl, rfl, _⟩ := hk
          · exact .inl hk
          · refine .inr ⟨rfl, rfl, ?_⟩
            rintro rfl
            exact hne rfl

theorem Only.elemLoop (drains : Bool) {rebuild : List W.Obj → M W W.Obj} (hr : ∀ l, Only Q (rebuild l)) (v : W.Obj)
    {es : List (W.Obj × (W.Obj → M W W.Obj))} (h : ∀ q ∈ es, ∀ w, Only Q (q.2 w)) (pre : List W.Obj) :
    Only Q (elemLoop drains rebuild v es pre) := by
  induction es generalizing pre with
  | nil => exact .pure _
  | cons q es ih =>
    obtain ⟨x, f⟩ := q
    rw [Records.elemLoop]
    refine .bind (h _ (.head _) x) fun w => .ite (fun _ => ih (fun q hq => h q (.tail _ hq)) _) fun _ => .ite (fun _ => ?_) fun _ => hr _
    exact .bind (.generator (.mapM fun q hq => h q (.tail _ hq) _)) fun _ => hr _

theorem Only.iterValidator (hW : W.Only Q) (deque : Bool) {f : W.Obj → M W W.Obj} (hf : ∀ v, Only Q (f v))
    (v : W.Obj) : Only Q (iterValidator deque f v) := by
  unfold Records.iterValidator
  apply Only.elemLoop
  · intro l
    cases deque
    · exact hW.mkIter _ _
    · exact hW.mkDeque _ _ _
  · intro q hq w
    obtain ⟨e, _, rfl⟩ := List.mem_map.1 hq
    exact hf w

theorem Only.tupleValidator (hW : W.Only Q) {fs : List (W.Obj → M W W.Obj)} (hf : ∀ f ∈ fs, ∀ v, Only Q (f v))
    (v : W.Obj) : Only Q (tupleValidator fs v) := by
  unfold Records.tupleValidator
  apply Only.elemLoop
  · intro l; exact hW.mkIter _ _
  · intro q hq w
    exact hf _ (List.of_mem_zip hq).2 w

theorem Only.mapValidator (hW : W.Only Q) (dd : Bool) {fk fv : W.Obj → M W W.Obj} (hk : ∀ v, Only Q (fk v))
    (hv : ∀ v, Only Q (fv v)) (v : W.Obj) : Only Q (mapValidator dd fk fv v) := by
  unfold Records.mapValidator
  refine .bind (.mapM fun q _ => .bind (hk _) fun _ => .bind (hv _) fun _ => .pure _) fun l => .ite (fun _ => ?_) fun _ => .pure _
  cases dd
  · exact hW.mkMap _ _
  · exact hW.mkDefaultDict _ _ _

theorem Only.typeValidator (base : Option W.Cls) (v : W.Obj) : Only Q (typeValidator base v) := by
  unfold Records.typeValidator
  split
  · exact .ite (fun _ => .pure _) fun _ => .vE
  · exact .tE

theorem Only.tupleLenValidator (n : Nat) (v : W.Obj) : Only Q (tupleLenValidator n v) := by
  unfold Records.tupleLenValidator
  exact .ite (fun _ => .vE) fun _ => .pure _

/-! ### fillers -/

mutual
/-- the callbacks of a filler raise only `Q`; unions have members -/
def F.Src (Q : ExcKind → Prop) : F W → Prop
  | .dumb _ => True
  | .failing _ => True
  | .ann a => a.Src Q
  | .union _ args applied subs => subs ≠ [] ∧ (∀ t ∈ args ++ applied, t.Only Q) ∧ F.SrcL Q subs
  | .wrap _ _ inner subs => inner.Src Q ∧ F.SrcL Q subs
def F.SrcL (Q : ExcKind → Prop) : List (F W) → Prop
  | [] => True
  | f :: fs => f.Src Q ∧ F.SrcL Q fs
end

theorem F.SrcL.mem {fs : List (F W)} (h : F.SrcL Q fs) : ∀ f ∈ fs, f.Src Q := by
  induction fs with
  | nil => nofun
  | cons f fs ih =>
    rw [F.SrcL] at h
    intro g hg
    cases hg with
    | head => exact h.1
    | tail _ hg => exact ih h.2 g hg

theorem F.SrcL.of {fs : List (F W)} (h : ∀ f ∈ fs, f.Src Q) : F.SrcL Q fs := by
  induction fs with
  | nil => rw [F.SrcL]; trivial
  | cons f fs ih => rw [F.SrcL]; exact ⟨h f (.head _), ih fun g hg => h g (.tail _ hg)⟩

theorem F.AllBound.mem {fs : List (F W)} (h : F.AllBound fs) : ∀ f ∈ fs, f.Bound := by
  intro f hf
  obtain ⟨i, hi⟩ := List.getElem?_of_mem hf
  exact h.get hi

mutual
theorem F.Src.fill {f : F W} (h : f.Src Q) (hb : f.Bound) (v : W.Obj) : Only Q (f.fill v) := by
  match f with
  | .dumb _ => rw [F.fill]; exact .pure _
  | .failing _ => rw [F.Bound] at hb; exact hb.elim
  | .ann a => rw [F.fill]; rw [F.Src] at h; rw [F.Bound] at hb; exact h.fill hb v
  | .union _ _ _ subs =>
    rw [F.fill]; rw [F.Src] at h; rw [F.Bound] at hb
    refine .ite (fun _ => .pure _) fun _ => .unionLoop v (F.SrcL.fills h.2.2 hb.2 v) _ _ (.inr ⟨rfl, rfl, ?_⟩)
    intro h0
    cases subs with
    | nil => exact h.1 rfl
    | cons f fs => rw [F.fills] at h0; cases h0
  | .wrap _ _ inner _ => rw [F.fill]; rw [F.Src] at h; rw [F.Bound] at hb; exact h.1.fill hb.2.1 v
theorem F.SrcL.fills {fs : List (F W)} (h : F.SrcL Q fs) (hb : F.AllBound fs) (v : W.Obj) : ∀ g ∈ F.fills fs, Only Q (g v) := by
  match fs with
  | [] => rw [F.fills]; nofun
  | f :: fs =>
    rw [F.fills]; rw [F.SrcL] at h; rw [F.AllBound] at hb
    intro g hg
    cases hg with
    | head => exact h.1.fill hb.1 v
    | tail _ hg => exact F.SrcL.fills h.2 hb.2 v g hg
end

theorem F.Src.call {f : F W} (h : f.Src Q) (hb : f.Bound) (v : W.Obj) : Only Q (f.call v) := by
  have main : Only Q (M.bind (f.fill v) fun r => M.pure r.1) := .bind (h.fill hb v) fun _ => .pure _
  cases f with
  | ann a => rw [F.Src] at h; rw [F.Bound] at hb; exact h.call hb v
  | dumb b => exact main
  | failing e => exact main
  | union _ _ _ _ => exact main
  | wrap _ _ _ _ => exact main

theorem F.Src.apply {f f' : F W} (h : f.Src Q) {t : Tok W} (ht : t.Only Q) (e : f.apply t = .ok f') : f'.Src Q := by
  cases f with
  | dumb b => cases e
  | failing x => cases e; exact h
  | ann a =>
    rw [F.Src] at h
    rw [F.apply] at e
    cases h1 : a.apply t with
    | error x => rw [h1] at e; cases e
    | ok a' => rw [h1] at e; cases e; rw [F.Src]; exact h.apply ht h1
  | union b args applied subs =>
    rw [F.Src] at h
    rw [F.apply] at e
    split at e
    · cases e
    · cases e
      rw [F.Src]
      refine ⟨h.1, ?_, h.2.2⟩
      intro u hu
      rw [← List.append_assoc] at hu
      rcases List.mem_append.1 hu with hu | hu
      · exact h.2.1 u hu
      · cases List.mem_singleton.1 hu; exact ht
  | wrap b k inner subs =>
    rw [F.Src] at h
    rw [F.apply] at e
    cases h1 : inner.apply t with
    | error x => rw [h1] at e; cases e
    | ok a' => rw [h1] at e; cases e; rw [F.Src]; exact ⟨h.1.apply ht h1, h.2⟩

theorem wrapFinish_src (hW : W.Only Q) {k : WrapKind W} {inner inner' : Ann W} {subs : List (F W)} (hi : inner.Src Q)
    (hs : F.SrcL Q subs) (hb : F.AllBound subs) (e : wrapFinish k inner subs = .ok inner') : inner'.Src Q := by
  have call : ∀ f ∈ subs, ∀ v, Only Q (f.call v) := fun f hf v => (hs.mem f hf).call (hb.mem f hf) v
  have iter : ∀ (b : Bool) (s : List (F W)), s = subs → (match s with
    | [f] =>
      if f.isHollow then Except.ok inner
      else if inner.style = Style.hollow then .error Exc.typeError
      else .ok (inner.addValidator (iterValidator b f.call))
    | _ => .ok inner) = .ok inner' → inner'.Src Q := by
    intro b s hs e
    split at e
    · rename_i f
      split at e
      · cases e; exact hi
      · split at e
        · cases e
        · cases e; exact hi.addValidator (.iterValidator hW _ (call f (by rw [← hs]; exact .head _)))
    · cases e; exact hi
  have map : ∀ (b : Bool) (s : List (F W)), s = subs → (match s with
    | [fk, fv] =>
      if fk.isHollow && fv.isHollow then Except.ok inner
      else if inner.style = Style.hollow then .error Exc.typeError
      else .ok (inner.addValidator (mapValidator b fk.call fv.call))
    | _ => .ok inner) = .ok inner' → inner'.Src Q := by
    intro b s hs e
    split at e
    · rename_i fk fv
      split at e
      · cases e; exact hi
      · split at e
        · cases e
        · cases e
          exact hi.addValidator (.mapValidator hW _ (call fk (by rw [← hs]; exact .head _))
            (call fv (by rw [← hs]; exact .tail _ (.head _))))
    · cases e; exact hi
  cases k with
  | typeF base =>
    unfold wrapFinish at e
    simp only at e
    split at e
    · cases e; exact hi
    · cases e; exact hi.addValidator (.typeValidator _)
  | tupleFix =>
    unfold wrapFinish at e
    simp only at e
    have h1 : (if inner.style = .hollow then inner else inner.addValidator (tupleLenValidator subs.length)).Src Q := by
      split
      · exact hi
      · exact hi.addValidator (.tupleLenValidator _)
    split at e
    · cases e; exact h1
    · split at e
      · cases e
      · rename_i h2
        cases e
        rw [if_neg h2] at h1
        refine h1.addValidator (.tupleValidator hW ?_)
        intro f hf v
        obtain ⟨g, hg, rfl⟩ := List.mem_map.1 hf
        exact call g hg v
  | tupleVar => exact iter false subs rfl e
  | iter => exact iter false subs rfl e
  | deque => exact iter true subs rfl e
  | mapping => exact map false subs rfl e
  | defaultdict => exact map true subs rfl e
  | generic =>
    unfold wrapFinish at e
    simp only at e
    split at e
    · cases e; exact hi
    · cases e

theorem bindUnion_ne {d : Style} {toks : List (Tok W)} {fs fs' : List (F W)} (h : fs ≠ [])
    (e : F.bindUnion d toks fs = .ok fs') : fs' ≠ [] := by
  cases fs with
  | nil => exact absurd rfl h
  | cons f fs =>
    rw [F.bindUnion] at e
    split at e
    · cases e
    · split at e
      · cases e
      · cases e; nofun

mutual
theorem F.Src.bind (hW : W.Only Q) {d : Style} (hd : d ≠ .default) {f f' : F W} (h : f.Src Q) (e : f.bind d = .ok f') : f'.Src Q := by
  match f with
  | .dumb b =>
    rw [F.bind] at e
    split at e
    · cases e
    · split at e
      · cases e
      · cases e; rw [F.Src]; trivial
  | .failing x => rw [F.bind] at e; cases e
  | .ann a =>
    rw [F.bind] at e
    rw [F.Src] at h
    cases h1 : a.bind d with
    | error x => rw [h1] at e; cases e
    | ok a' => rw [h1] at e; cases e; rw [F.Src]; exact h.bind hd h1
  | .union b args applied subs =>
    rw [F.bind] at e
    rw [F.Src] at h
    split at e
    · cases e
    · cases h1 : F.bindUnion d (args ++ applied) subs with
      | error x => rw [h1] at e; cases e
      | ok subs' =>
        rw [h1] at e; cases e; rw [F.Src]
        exact ⟨bindUnion_ne h.1 h1, h.2.1, F.SrcL.bindUnion hW hd h.2.2 h.2.1 h1⟩
  | .wrap b k inner subs =>
    rw [F.bind] at e
    rw [F.Src] at h
    split at e
    · cases e
    · cases h1 : inner.bind d with
      | error x => rw [h1] at e; cases e
      | ok inner1 =>
        rw [h1] at e
        simp only at e
        cases h2 : F.bindAll d subs with
        | error x => rw [h2] at e; cases e
        | ok subs' =>
          rw [h2] at e
          simp only at e
          cases h3 : wrapFinish k inner1 subs' with
          | error x => rw [h3] at e; cases e
          | ok inner2 =>
            rw [h3] at e; cases e
            have hs := F.SrcL.bindAll hW hd h.2 h2
            rw [F.Src]
            exact ⟨wrapFinish_src hW (h.1.bind hd h1) hs (F.bindAll_bound _ _ _ h2) h3, hs⟩
theorem F.SrcL.bindAll (hW : W.Only Q) {d : Style} (hd : d ≠ .default) {fs fs' : List (F W)} (h : F.SrcL Q fs) (e : F.bindAll d fs = .ok fs') :
    F.SrcL Q fs' := by
  match fs with
  | [] => rw [F.bindAll] at e; cases e; exact h
  | f :: fs =>
    rw [F.bindAll] at e
    rw [F.SrcL] at h
    cases h1 : f.bind d with
    | error x => rw [h1] at e; cases e
    | ok f1 =>
      rw [h1] at e
      simp only at e
      cases h2 : F.bindAll d fs with
      | error x => rw [h2] at e; cases e
      | ok fs1 =>
        rw [h2] at e; cases e
        rw [F.SrcL]; exact ⟨h.1.bind hW hd h1, F.SrcL.bindAll hW hd h.2 h2⟩
theorem F.SrcL.bindUnion (hW : W.Only Q) {d : Style} (hd : d ≠ .default) {toks : List (Tok W)} {fs fs' : List (F W)} (h : F.SrcL Q fs)
    (ht : ∀ t ∈ toks, t.Only Q) (e : F.bindUnion d toks fs = .ok fs') : F.SrcL Q fs' := by
  match fs with
  | [] => rw [F.bindUnion] at e; cases e; exact h
  | f :: fs =>
    rw [F.bindUnion] at e
    rw [F.SrcL] at h
    cases h1 : F.applyBind d toks f with
    | error x => rw [h1] at e; cases e
    | ok f1 =>
      rw [h1] at e
      simp only at e
      cases h2 : F.bindUnion d toks fs with
      | error x => rw [h2] at e; cases e
      | ok fs1 =>
        rw [h2] at e; cases e
        rw [F.SrcL]; exact ⟨h.1.applyBind hW hd ht h1, F.SrcL.bindUnion hW hd h.2 ht h2⟩
theorem F.Src.applyBind (hW : W.Only Q) {d : Style} (hd : d ≠ .default) {toks : List (Tok W)} {f f' : F W} (h : f.Src Q)
    (ht : ∀ t ∈ toks, t.Only Q) (e : F.applyBind d toks f = .ok f') : f'.Src Q := by
  match f with
  | .dumb b =>
    rw [F.applyBind] at e
    split at e
    · cases e
    · split at e
      · cases e
      · split at e
        · cases e
        · cases e; rw [F.Src]; trivial
  | .failing x => rw [F.applyBind] at e; cases e
  | .ann a =>
    rw [F.applyBind] at e
    rw [F.Src] at h
    cases h0 : a.applyAll toks with
    | error x => rw [h0] at e; cases e
    | ok a0 =>
      rw [h0] at e
      simp only at e
      cases h1 : a0.bind d with
      | error x => rw [h1] at e; cases e
      | ok a' => rw [h1] at e; cases e; rw [F.Src]; exact (h.applyAll ht h0).bind hd h1
  | .union b args applied subs =>
    rw [F.applyBind] at e
    rw [F.Src] at h
    have ht' : ∀ t ∈ args ++ (applied ++ toks), t.Only Q := by
      intro t hm
      rw [← List.append_assoc] at hm
      rcases List.mem_append.1 hm with hm | hm
      · exact h.2.1 t hm
      · exact ht t hm
    split at e
    · cases e
    · cases h1 : F.bindUnion d (args ++ (applied ++ toks)) subs with
      | error x => rw [h1] at e; cases e
      | ok subs' =>
        rw [h1] at e; cases e; rw [F.Src]
        exact ⟨bindUnion_ne h.1 h1, ht', F.SrcL.bindUnion hW hd h.2.2 ht' h1⟩
  | .wrap b k inner subs =>
    rw [F.applyBind] at e
    rw [F.Src] at h
    cases h0 : inner.applyAll toks with
    | error x => rw [h0] at e; cases e
    | ok inner0 =>
      rw [h0] at e
      simp only at e
      split at e
      · cases e
      · cases h1 : inner0.bind d with
        | error x => rw [h1] at e; cases e
        | ok inner1 =>
          rw [h1] at e
          simp only at e
          cases h2 : F.bindAll d subs with
          | error x => rw [h2] at e; cases e
          | ok subs' =>
            rw [h2] at e
            simp only at e
            cases h3 : wrapFinish k inner1 subs' with
            | error x => rw [h3] at e; cases e
            | ok inner2 =>
              rw [h3] at e; cases e
              have hs := F.SrcL.bindAll hW hd h.2 h2
              rw [F.Src]
              exact ⟨wrapFinish_src hW ((h.1.applyAll ht h0).bind hd h1) hs (F.bindAll_bound _ _ _ h2) h3, hs⟩
end

/-! ### from type hints to fillers -/

theorem Ann.Src.fresh {k : Kind W} {args : List (Tok W)} (h : ∀ t ∈ args, t.Only Q) :
    Ann.Src Q ({ kind := k, args := args } : Ann W) := ⟨nofun, h, nofun, nofun⟩

theorem noToksOnly : ∀ t ∈ (none : Option (List (Tok W))).getD [], t.Only Q := fun _ h => nomatch h

theorem getFs_ne {hs : List (Hint W)} {fs : List (F W)} (h : hs ≠ []) (e : getFs hs = .ok fs) : fs ≠ [] := by
  cases hs with
  | nil => exact absurd rfl h
  | cons a hs =>
    rw [getFs] at e
    split at e
    · cases e
    · split at e
      · cases e
      · cases e; nofun

mutual
theorem getF_src {h : Hint W} (hh : h.Only Q) {args : Option (List (Tok W))} (ha : ∀ t ∈ args.getD [], t.Only Q)
    {f : F W} (e : getF h args = .ok f) : f.Src Q := by
  have one : ∀ {g : F W}, g.Src Q → F.SrcL Q [g] := fun hg => by rw [F.SrcL, F.SrcL]; exact ⟨hg, trivial⟩
  match h with
  | .cls c => rw [getF] at e; cases e; rw [F.Src]; exact .fresh ha
  | .none => rw [getF] at e; cases e; rw [F.Src]; exact .fresh ha
  | .any => rw [getF] at e; cases e; rw [F.Src]; exact .fresh ha
  | .callable => rw [getF] at e; cases e; rw [F.Src]; exact .fresh ha
  | .newType h => rw [getF] at e; rw [Hint.Only] at hh; exact getF_src hh (by simpa using ha) e
  | .union hs =>
    rw [getF] at e; rw [Hint.Only] at hh
    cases h1 : getFs hs with
    | error x => rw [h1] at e; cases e
    | ok fs => rw [h1] at e; cases e; rw [F.Src]; exact ⟨getFs_ne hh.1 h1, by simpa using ha, getFs_src hh.2 h1⟩
  | .literal id vals => rw [getF] at e; cases e; rw [F.Src]; exact .fresh ha
  | .typeBare => rw [getF] at e; cases e; rw [F.Src]; exact .fresh ha
  | .typeOf base => rw [getF] at e; cases e; rw [F.Src, F.SrcL]; exact ⟨.fresh ha, trivial⟩
  | .tupleFix hs =>
    rw [getF] at e; rw [Hint.Only] at hh
    cases h1 : getFs hs with
    | error x => rw [h1] at e; cases e
    | ok fs => rw [h1] at e; cases e; rw [F.Src]; exact ⟨.fresh ha, getFs_src hh h1⟩
  | .tupleVar h =>
    rw [getF] at e; rw [Hint.Only] at hh
    cases h1 : getF h none with
    | error x => rw [h1] at e; cases e
    | ok f => rw [h1] at e; cases e; rw [F.Src]; exact ⟨.fresh ha, one (getF_src hh noToksOnly h1)⟩
  | .iter c h =>
    rw [getF] at e; rw [Hint.Only] at hh
    cases h1 : getF h none with
    | error x => rw [h1] at e; cases e
    | ok f => rw [h1] at e; cases e; rw [F.Src]; exact ⟨.fresh ha, one (getF_src hh noToksOnly h1)⟩
  | .deque c h =>
    rw [getF] at e; rw [Hint.Only] at hh
    cases h1 : getF h none with
    | error x => rw [h1] at e; cases e
    | ok f => rw [h1] at e; cases e; rw [F.Src]; exact ⟨.fresh ha, one (getF_src hh noToksOnly h1)⟩
  | .mapping c k v =>
    rw [getF] at e; rw [Hint.Only] at hh
    cases h1 : getF k none with
    | error x => rw [h1] at e; cases e
    | ok fk =>
      rw [h1] at e
      simp only at e
      cases h2 : getF v none with
      | error x => rw [h2] at e; cases e
      | ok fv =>
        rw [h2] at e; cases e; rw [F.Src]
        refine ⟨.fresh ha, ?_⟩
        rw [F.SrcL]; exact ⟨getF_src hh.1 noToksOnly h1, one (getF_src hh.2 noToksOnly h2)⟩
  | .defaultdict c k v =>
    rw [getF] at e; rw [Hint.Only] at hh
    cases h1 : getF k none with
    | error x => rw [h1] at e; cases e
    | ok fk =>
      rw [h1] at e
      simp only at e
      cases h2 : getF v none with
      | error x => rw [h2] at e; cases e
      | ok fv =>
        rw [h2] at e; cases e; rw [F.Src]
        refine ⟨.fresh ha, ?_⟩
        rw [F.SrcL]; exact ⟨getF_src hh.1 noToksOnly h1, one (getF_src hh.2 noToksOnly h2)⟩
  | .generic c hs =>
    rw [getF] at e; rw [Hint.Only] at hh
    cases e; rw [F.Src]; exact ⟨.fresh ha, getFsLate_src hh⟩
  | .bareGeneric c => rw [getF] at e; cases e; rw [F.Src]; exact .fresh ha
  | .annotated h toks =>
    rw [Hint.Only] at hh
    cases args with
    | none => rw [getF] at e; exact getF_src hh.1 (by simpa using hh.2) e
    | some args =>
      rw [getF] at e
      split at e
      · cases e; rw [F.Src]; trivial
      · cases e
  | .opaque =>
    rw [getF] at e
    split at e
    · cases e; rw [F.Src]; trivial
    · cases e
theorem getFs_src {hs : List (Hint W)} (hh : Hint.OnlyL Q hs) {fs : List (F W)} (e : getFs hs = .ok fs) : F.SrcL Q fs := by
  match hs with
  | [] => rw [getFs] at e; cases e; rw [F.SrcL]; trivial
  | h :: hs =>
    rw [getFs] at e; rw [Hint.OnlyL] at hh
    cases h1 : getF h none with
    | error x => rw [h1] at e; cases e
    | ok f =>
      rw [h1] at e
      simp only at e
      cases h2 : getFs hs with
      | error x => rw [h2] at e; cases e
      | ok fs' =>
        rw [h2] at e; cases e; rw [F.SrcL]; exact ⟨getF_src hh.1 noToksOnly h1, getFs_src hh.2 h2⟩
theorem getFsLate_src {hs : List (Hint W)} (hh : Hint.OnlyL Q hs) : F.SrcL Q (getFsLate hs) := by
  match hs with
  | [] => rw [getFsLate, F.SrcL]; trivial
  | h :: hs =>
    rw [getFsLate, F.SrcL]; rw [Hint.OnlyL] at hh
    refine ⟨?_, getFsLate_src hh.2⟩
    cases h1 : getF h none with
    | error x => simp only; rw [F.Src]; trivial
    | ok f => simp only; exact getF_src hh.1 noToksOnly h1
end

theorem F.Src.applySub {f f' : F W} (h : f.Src Q) {key : Option Int} {t : Tok W} (ht : t.Only Q)
    (e : f.applySub key t = .ok f') : f'.Src Q := by
  have at_ : ∀ (subs : List (F W)) (j : Option Nat) (re : List (F W) → F W), F.SrcL Q subs →
      (∀ l, l ≠ [] → F.SrcL Q l → (re l).Src Q) → F.withSub.at_ (fun g => g.apply t) subs j re = .ok f' → f'.Src Q := by
    intro subs j re hs hre e
    unfold F.withSub.at_ at e
    cases j with
    | none => cases e
    | some j =>
      simp only at e
      cases h1 : subs[j]? with
      | none => rw [h1] at e; cases e
      | some g =>
        rw [h1] at e
        simp only at e
        cases h2 : g.apply t with
        | error x => rw [h2] at e; cases e
        | ok g' =>
          rw [h2] at e; cases e
          refine hre _ (fun h0 => ?_) ?_
          · rw [List.set_eq_nil_iff] at h0
            rw [h0] at h1
            cases h1
          apply F.SrcL.of
          intro k hk
          rcases List.mem_or_eq_of_mem_set hk with hk | rfl
          · exact hs.mem k hk
          · exact (hs.mem g (List.mem_of_getElem? h1)).apply ht h2
  unfold F.applySub F.withSub at e
  cases key with
  | none => exact h.apply ht e
  | some i =>
    simp only at e
    cases f with
    | dumb b => cases e
    | failing x => cases e
    | ann a => cases e
    | union b args app subs =>
      rw [F.Src] at h
      exact at_ _ _ _ h.2.2 (fun l hn hl => by rw [F.Src]; exact ⟨hn, h.2.1, hl⟩) e
    | wrap b k inner subs =>
      rw [F.Src] at h
      have hre : ∀ l, l ≠ [] → F.SrcL Q l → (F.wrap b k inner l).Src Q := fun l _ hl => by rw [F.Src]; exact ⟨h.1, hl⟩
      simp only at e
      split at e
      · exact at_ _ _ _ h.2 hre e
      · exact at_ _ _ _ h.2 hre e
      · split at e
        · exact at_ _ _ _ h.2 hre e
        · cases e
      · split at e
        · exact at_ _ _ _ h.2 hre e
        · cases e
      · split at e
        · exact at_ _ _ _ h.2 hre e
        · split at e
          · exact at_ _ _ _ h.2 hre e
          · cases e
      · split at e
        · exact at_ _ _ _ h.2 hre e
        · split at e
          · exact at_ _ _ _ h.2 hre e
          · cases e
      · cases e
      · cases e

theorem makeFiller_src (hW : W.Only Q) {d : Style} (hd : d ≠ .default) {pre : List (Option Int × Tok W)} {h : Hint W} {f : F W}
    (hh : h.Only Q) (hp : ∀ q ∈ pre, q.2.Only Q) (e : makeFiller d pre h = .ok f) : f.Src Q := by
  have pres : ∀ (pre : List (Option Int × Tok W)) (f f' : F W), (∀ q ∈ pre, q.2.Only Q) → f.Src Q →
      f.applyPre pre = .ok f' → f'.Src Q := by
    intro pre
    induction pre with
    | nil => intro f f' _ hf e; cases e; exact hf
    | cons q pre ih =>
      intro f f' hp hf e
      obtain ⟨k, t⟩ := q
      rw [F.applyPre] at e
      cases h1 : f.applySub k t with
      | error x => rw [h1] at e; cases e
      | ok f1 =>
        rw [h1] at e
        exact ih f1 f' (fun q hq => hp q (.tail _ hq)) (hf.applySub (hp _ (.head _)) h1) e
  unfold makeFiller at e
  cases h1 : getFiller h with
  | error x => rw [h1] at e; cases e
  | ok f1 =>
    rw [h1] at e
    simp only at e
    cases h2 : f1.applyPre pre with
    | error x => rw [h2] at e; cases e
    | ok f2 =>
      rw [h2] at e
      exact (pres pre f1 f2 hp (getF_src hh noToksOnly h1) h2).bind hW hd e

theorem makeFiller_bound {d : Style} {pre : List (Option Int × Tok W)} {h : Hint W} {f : F W}
    (e : makeFiller d pre h = .ok f) : f.Bound := by
  unfold makeFiller at e
  split at e
  · cases e
  · split at e
    · cases e
    · exact F.bind_Bound e

/-! ### classes -/

/-- the callbacks of a class raise only `Q` -/
structure RecClass.Src (Q : ExcKind → Prop) (C : RecClass W) : Prop where
  fields : ∀ kf ∈ C.fields, kf.2.filler.Src Q ∧ ∀ d, kf.2.default = some d → d.Only Q
  parsers : ∀ q ∈ C.parsers, q.Only Q
  postNew : ∀ i, Only Q (C.postNew i)

/-- the callbacks of the fields raise only `Q` -/
def FieldsSrc (Q : ExcKind → Prop) (fs : Dict (Field W)) : Prop :=
  ∀ kf ∈ fs, kf.2.filler.Src Q ∧ ∀ d, kf.2.default = some d → d.Only Q

theorem defaultOf_src {sp : ClassSpec W} (h : sp.Only Q) {n : String} {d : Deflt W} (e : sp.defaultOf n = some d) :
    d.Only Q := by
  unfold ClassSpec.defaultOf at e
  cases h1 : sp.attrs.get? n with
  | none => rw [h1] at e; exact h.mroAttrs n d e
  | some d' => rw [h1] at e; cases e; exact h.attrs _ (Dict.mem_of_get? h1)

theorem fieldFromHint_src {owner : W.Cls} {frozen : Bool} {n : String} {d : Option (Deflt W)} {h : FHint W} {f : Field W}
    (hh : h.Only Q) (hd : ∀ x, d = some x → x.Only Q) (e : fieldFromHint owner frozen n d h = .ok (some f)) :
    f.filler.Src Q ∧ ∀ x, f.default = some x → x.Only Q := by
  unfold fieldFromHint at e
  cases h with
  | rawFinal => cases e
  | classVar => cases e
  | plain h =>
    simp only at e
    cases h1 : getFiller h with
    | error x => rw [h1] at e; cases e
    | ok g => rw [h1] at e; cases e; exact ⟨getF_src hh noToksOnly h1, hd⟩
  | final h toks =>
    simp only at e
    split at e
    · cases e
    · cases h1 : getFiller h with
      | error x => rw [h1] at e; cases e
      | ok g => rw [h1] at e; cases e; exact ⟨getF_src hh noToksOnly h1, hd⟩

theorem ownFields_src {sp : ClassSpec W} (h : sp.Only Q) {l : List (String × FHint W)} (hl : ∀ a ∈ l, a.2.Only Q)
    {fs : Dict (Field W)} (e : ownFields sp l = .ok fs) : FieldsSrc Q fs := by
  induction l generalizing fs with
  | nil => rw [ownFields] at e; cases e; nofun
  | cons a l ih =>
    obtain ⟨n, t⟩ := a
    rw [ownFields] at e
    cases h1 : fieldFromHint sp.cid sp.frozen n (sp.defaultOf n) t with
    | error x => rw [h1] at e; cases e
    | ok f =>
      rw [h1] at e
      simp only at e
      cases h2 : ownFields sp l with
      | error x => rw [h2] at e; cases e
      | ok fs' =>
        rw [h2] at e
        have hr := ih (fun a ha => hl a (.tail _ ha)) h2
        cases f with
        | none => cases e; exact hr
        | some f =>
          cases e
          intro kf hkf
          cases hkf with
          | head => exact fieldFromHint_src (hl _ (.head _)) (fun x hx => defaultOf_src h hx) h1
          | tail _ hkf => exact hr kf hkf

theorem addInherited_src {own l acc fs : Dict (Field W)} (hl : FieldsSrc Q l) (ha : FieldsSrc Q acc)
    (e : addInherited own l acc = .ok fs) : FieldsSrc Q fs := by
  induction l generalizing acc with
  | nil => rw [addInherited] at e; cases e; exact ha
  | cons a l ih =>
    obtain ⟨k, f⟩ := a
    rw [addInherited] at e
    split at e
    · cases e
    · refine ih (fun kf h => hl kf (.tail _ h)) ?_ e
      intro kf hkf
      rcases Dict.mem_set hkf with h | h
      · exact ha kf h
      · subst h; exact hl _ (.head _)

theorem inheritedFields_src {own acc fs : Dict (Field W)} {ps : List (RecClass W)} (hp : ∀ q ∈ ps, q.Src Q)
    (ha : FieldsSrc Q acc) (e : inheritedFields own ps acc = .ok fs) : FieldsSrc Q fs := by
  induction ps generalizing acc with
  | nil => rw [inheritedFields] at e; cases e; exact ha
  | cons q ps ih =>
    rw [inheritedFields] at e
    cases h1 : addInherited own q.fields acc with
    | error x => rw [h1] at e; cases e
    | ok acc' =>
      rw [h1] at e
      exact ih (fun q hq => hp q (.tail _ hq)) (addInherited_src (hp q (.head _)).fields ha h1) e

theorem preBind_src {l : List (String × Option Int × Tok W)} (hl : ∀ q ∈ l, q.2.2.Only Q) {fs fs' : Dict (Field W)}
    (h : FieldsSrc Q fs) (e : preBind l fs = .ok fs') : FieldsSrc Q fs' := by
  induction l generalizing fs with
  | nil => rw [preBind] at e; cases e; exact h
  | cons q l ih =>
    obtain ⟨n, key, t⟩ := q
    rw [preBind] at e
    cases h1 : preStep fs n key t with
    | error x => rw [h1] at e; cases e
    | ok fs1 =>
      rw [h1] at e
      refine ih (fun q hq => hl q (.tail _ hq)) ?_ e
      unfold preStep at h1
      cases h2 : fs.get? n with
      | none => rw [h2] at h1; cases h1
      | some f =>
        rw [h2] at h1
        simp only at h1
        cases h3 : f.filler.applySub key t with
        | error x => rw [h3] at h1; cases h1
        | ok g =>
          rw [h3] at h1; cases h1
          have hf := h _ (Dict.mem_of_get? h2)
          intro kf hkf
          rcases Dict.mem_set hkf with hk | hk
          · exact h kf hk
          · subst hk; exact ⟨hf.1.applySub (hl _ (.head _)) h3, hf.2⟩

theorem bindFields_src (hW : W.Only Q) {c : W.Cls} {d : Style} (hd : d ≠ .default) {fs fs' : Dict (Field W)} (h : FieldsSrc Q fs)
    (e : bindFields c d fs = .ok fs') : FieldsSrc Q fs' := by
  induction fs generalizing fs' with
  | nil => rw [bindFields] at e; cases e; exact h
  | cons a fs ih =>
    obtain ⟨n, f⟩ := a
    rw [bindFields] at e
    have hf := h _ (.head _)
    have hr := fun {l} (e : bindFields c d fs = .ok l) => ih (fun kf hk => h kf (.tail _ hk)) e
    split at e
    · cases h1 : f.filler.bind d with
      | error x => rw [h1] at e; cases e
      | ok g =>
        rw [h1] at e
        simp only at e
        cases h2 : bindFields c d fs with
        | error x => rw [h2] at e; cases e
        | ok l =>
          rw [h2] at e; cases e
          intro kf hkf
          cases hkf with
          | head => exact ⟨hf.1.bind hW hd h1, hf.2⟩
          | tail _ hkf => exact hr h2 kf hkf
    · cases h2 : bindFields c d fs with
      | error x => rw [h2] at e; cases e
      | ok l =>
        rw [h2] at e; cases e
        intro kf hkf
        cases hkf with
        | head => exact hf
        | tail _ hkf => exact hr h2 kf hkf

theorem mkClass_src (hW : W.Only Q) {sp : ClassSpec W} {C : RecClass W} (h : sp.Only Q) (hp : ∀ q ∈ sp.parents, q.Src Q)
    (e : mkClass sp = .ok C) : C.Src Q := by
  unfold mkClass at e
  cases h1 : ownFields sp sp.hints with
  | error x => rw [h1] at e; cases e
  | ok own =>
    rw [h1] at e
    simp only at e
    cases h2 : inheritedFields own sp.parents [] with
    | error x => rw [h2] at e; cases e
    | ok inh =>
      rw [h2] at e
      simp only at e
      have ho := ownFields_src h (fun a ha => h.anns a (hints_mem ha)) h1
      have hi := inheritedFields_src (acc := []) hp (fun _ h => by cases h) h2
      have ha : FieldsSrc Q (if inh.isEmpty then own else inh.update own) := by
        split
        · exact ho
        · intro kf hkf
          rcases Dict.mem_update hkf with hk | hk
          · exact hi kf hk
          · exact ho kf hk
      generalize (if inh.isEmpty then own else inh.update own) = all at e ha
      split at e
      · cases e
      · cases h3 : preBind sp.pre all with
        | error x => rw [h3] at e; cases e
        | ok all1 =>
          rw [h3] at e
          simp only at e
          cases h4 : bindFields sp.cid sp.style all1 with
          | error x => rw [h4] at e; cases e
          | ok all2 =>
            rw [h4] at e; cases e
            exact ⟨bindFields_src hW h.style (preBind_src h.pre ha h3) h4, h.parsers, h.postNew⟩

theorem RaisesOnly.src (hW : W.Only Q) {C : RecClass W} (h : RaisesOnly Q C) : C.Src Q := by
  induction h with
  | intro sp C _ h1 _ e ih => exact mkClass_src hW h1 ih e

/-! ### construction, parsing, factories -/

theorem RaisesOnly.creatable {C : RecClass W} (h : RaisesOnly Q C) : Creatable C := by
  induction h with
  | intro sp C ok _ _ e ih => exact .intro sp C ok ih e

/-- what construction needs to know about a class -/
structure RecClass.Good (Q : ExcKind → Prop) (C : RecClass W) : Prop extends C.Src Q where
  wf : C.WF

theorem RaisesOnly.good (hW : W.Only Q) {C : RecClass W} (h : RaisesOnly Q C) : C.Good Q := ⟨h.src hW, h.creatable.wf⟩

theorem rewrapErr_only {E : Env W} (hE : ∀ n e, E.rewrap n = .raises e → Q e.kind) {e : Exc} (he : Q e.kind) (k : String) :
    Q (rewrapErr E e k).kind := by
  unfold rewrapErr
  split
  · rename_i n hk
    split
    · rw [hk] at he; exact he
    · exact hQ.valueError
    · rename_i e' hr
      split
      · exact hQ.valueError
      · exact hE n e' hr
  · exact he

theorem Only.fillLoop {E : Env W} (hE : ∀ n e, E.rewrap n = .raises e → Q e.kind) {C : RecClass W} (h : C.Good Q)
    (standby : Option (Res W)) (kw values : Dict W.Obj) (hkw : ∀ k ∈ kw.keys, C.fields.has k = true) :
    Only Q (fillLoop E C.fields standby kw values) := by
  induction kw generalizing values with
  | nil => exact .pure _
  | cons a kw ih =>
    obtain ⟨k, v⟩ := a
    intro s e s' hx
    cases hf : C.fields.get? k with
    | none => have := hkw k (.head _); unfold Dict.has at this; rw [hf] at this; cases this
    | some f =>
      have hc := ((h.fields _ (Dict.mem_of_get? hf)).1).call (h.wf.bound k f hf) v
      rcases h1 : f.filler.call v s with ⟨r1, s1⟩
      simp only [Records.fillLoop, hf, h1] at hx
      cases r1 with
      | ok w => exact ih (values.set k w) (fun k hk => hkw k (.tail _ hk)) s1 e s' hx
      | error e1 =>
        simp only at hx
        split at hx
        · cases hx; exact hc s _ _ h1
        · split at hx
          · cases hx
          · cases hx; exact rewrapErr_only hE (hc s _ _ h1) k

theorem Deflt.Only.make {d : Deflt W} (h : d.Only Q) : Records.Only Q d.make := by
  cases d with
  | value v => exact .pure _
  | factory f => exact h

theorem Only.defaultLoop {C : RecClass W} (h : C.Good Q) (ks : List String) (values : Dict W.Obj) (hk : ∀ k ∈ ks, k ∈ C.optional) :
    Only Q (defaultLoop C.fields ks values) := by
  induction ks generalizing values with
  | nil => exact .pure _
  | cons k ks ih =>
    rw [Records.defaultLoop]
    obtain ⟨f, d, hf, hd⟩ := (h.wf.opt k).1 (hk k (.head _))
    rw [hf]
    simp only [Option.bind, hd]
    exact .bind ((h.fields _ (Dict.mem_of_get? hf)).2 d hd).make fun v => ih _ fun k hm => hk k (.tail _ hm)

theorem Only.finishNew {C : RecClass W} (h : C.Src Q) (standby : Option (Res W)) (i : Inst W) :
    Only Q (finishNew C standby i) := by
  have hc := h.postNew i
  intro s e s' hx
  rcases h1 : C.postNew i s with ⟨r1, s1⟩
  simp only [Records.finishNew, h1] at hx
  cases r1 with
  | ok w =>
    obtain ⟨i', o⟩ := w
    simp only at hx
    split at hx
    · cases hx; exact hQ.typeError
    · cases hx
  | error e1 =>
    simp only at hx
    split at hx
    · cases hx; exact hc s _ _ h1
    · split at hx
      · split at hx
        · cases hx
        · cases hx; exact hc s _ _ h1
      · cases hx; exact hc s _ _ h1

theorem Only.newFields {E : Env W} (hE : ∀ n e, E.rewrap n = .raises e → Q e.kind) {C : RecClass W} (h : C.Good Q)
    (standby : Option (Res W)) (kw : Dict W.Obj) : Only Q (newFields E C standby kw) := by
  unfold Records.newFields
  refine .ite (fun _ => .tE) fun hk => .bind (.fillLoop hE h _ _ _ ?_) fun r => ?_
  · intro k hm
    cases hh : C.fields.has k with
    | true => rfl
    | false => exact absurd (List.any_eq_true.2 ⟨k, hm, by rw [hh]; rfl⟩) hk
  · cases r with
    | inl r => exact .pure _
    | inr values =>
      refine .ite (fun _ => .tE) fun _ => .bind (.defaultLoop h _ _ ?_) fun _ => .finishNew h.toSrc _ _
      intro k hm
      exact (List.mem_filter.1 ((E.setOrder_perm _).mem_iff.1 hm)).1

theorem Only.tryParse (C : RecClass W) {parse : W.Obj → M W (Res W)} (hp : ∀ v, Only Q (parse v)) (a : W.Obj)
    (kw : Dict W.Obj) : Only Q (tryParse C parse a kw) := by
  unfold Records.tryParse
  refine .ite (fun _ => ?_) fun _ => .pure _
  intro s e s' hx
  rcases h1 : parse a s with ⟨r1, s1⟩
  simp only [h1] at hx
  cases r1 with
  | ok w => cases hx
  | error e1 =>
    simp only at hx
    split at hx
    · cases hx
    · cases hx; exact hp a s _ _ h1

theorem Only.construct {E : Env W} (hE : ∀ n e, E.rewrap n = .raises e → Q e.kind) {C : RecClass W} (h : C.Good Q)
    {parse : W.Obj → M W (Res W)} (hp : ∀ v, Only Q (parse v)) (arg : Option W.Obj) (kw : Dict W.Obj) :
    Only Q (construct E C parse arg kw) := by
  unfold Records.construct
  cases arg with
  | none => exact .newFields hE h _ _
  | some a =>
    refine .bind (.tryParse C hp a kw) fun standby => ?_
    split
    · exact .ite (fun _ => .tE) fun _ => .newFields hE h _ _
    · split
      · exact .pure _
      · exact .tE

theorem Only.callCls (C : RecClass W) {new : Option W.Obj → Dict W.Obj → M W (Res W)} (h : ∀ a kw, Only Q (new a kw))
    (arg : Option W.Obj) (kw : Dict W.Obj) : Only Q (callCls C new arg kw) := by
  have init : ∀ r, Only Q (callCls.init C kw r) := fun r => by
    unfold callCls.init; exact .ite (fun _ => .tE) fun _ => .pure _
  unfold Records.callCls
  refine .ite (fun _ => .tE) fun _ => ?_
  split
  · exact .tE
  · exact .bind (h _ _) init
  · exact .bind (h _ _) init

theorem Only.exportTuples {obj : Carrier W} (ho : ∀ n, Only Q (obj.attr n)) (o : ExportOpts) (missing : List String)
    {xs : List (XField W)} (hx : ∀ f ∈ xs, ∀ d, f.default = some d → d.Only Q) :
    Only Q (exportTuples obj o missing xs) := by
  induction xs with
  | nil => exact .pure _
  | cons f fs ih =>
    have ih' := ih fun f hf => hx f (.tail _ hf)
    intro s e s' hr
    unfold Records.exportTuples at hr
    split at hr
    · rename_i e0 he0
      cases hr
      unfold exportField at he0
      split at he0
      · cases he0
      · split at he0
        · cases he0; exact hQ.typeError
        · cases he0
    · exact ih' s e s' hr
    · rcases h1 : obj.attr f.name s with ⟨r1, s1⟩
      simp only [h1] at hr
      cases r1 with
      | ok v =>
        simp only at hr
        split at hr
        · exact (Only.bind ih' fun _ => .pure _) s1 e s' hr
        · exact ih' s1 e s' hr
      | error e1 =>
        simp only at hr
        split at hr
        · cases hr; exact ho _ s _ _ h1
        · split at hr
          · cases hr; exact ho _ s _ _ h1
          · split at hr
            · rename_i d hd
              exact (Only.bind (hx f (.head _) _ hd).make fun _ => .bind ih' fun _ => .pure _) s1 e s' hr
            · exact ih' s1 e s' hr

theorem extraction_src {C : RecClass W} (h : C.Src Q) (sel : Sel W.Obj) :
    ∀ f ∈ (extraction C sel).2.values, ∀ d, f.default = some d → d.Only Q := by
  have P0 : ∀ kf ∈ (C.fields.map fun kf => (kf.1, kf.2.x) : Dict (XField W)), ∀ d, kf.2.default = some d → d.Only Q := by
    intro kf hkf d hd
    obtain ⟨a, ha, rfl⟩ := List.mem_map.1 hkf
    exact (h.fields a ha).2 d hd
  have setMock : ∀ (x : Dict (XField W)) k, (∀ kf ∈ x, ∀ d, kf.2.default = some d → d.Only Q) →
      ∀ kf ∈ x.set k (mockField k), ∀ d, kf.2.default = some d → d.Only Q := by
    intro x k hx kf hkf d hd
    rcases Dict.mem_set hkf with hk | hk
    · exact hx kf hk d hd
    · subst hk; cases hd
  have fold : ∀ {β : Type} (g : Dict (XField W) → β → Dict (XField W)) (l : List β) (x : Dict (XField W)),
      (∀ x b, (∀ kf ∈ x, ∀ d, kf.2.default = some d → d.Only Q) → ∀ kf ∈ g x b, ∀ d, kf.2.default = some d → d.Only Q) →
      (∀ kf ∈ x, ∀ d, kf.2.default = some d → d.Only Q) →
      ∀ kf ∈ l.foldl g x, ∀ d, kf.2.default = some d → d.Only Q := by
    intro β g l
    induction l with
    | nil => intro x _ hx; exact hx
    | cons b l ih => intro x hg hx; exact ih (g x b) hg (hg x b hx)
  have erase : ∀ (x : Dict (XField W)) k, ∀ kf ∈ x.erase k, kf ∈ x := by
    intro x k
    induction x with
    | nil => intro kf hk; exact hk
    | cons a x ih =>
      obtain ⟨k', v'⟩ := a
      intro kf hk
      rw [Dict.erase] at hk
      split at hk
      · exact .tail _ hk
      · cases hk with
        | head => exact .head _
        | tail _ hk => exact .tail _ (ih kf hk)
  suffices ∀ kf ∈ (extraction C sel).2, ∀ d, kf.2.default = some d → d.Only Q by
    intro f hf
    obtain ⟨kf, hkf, rfl⟩ := List.mem_map.1 hf
    exact this kf hkf
  unfold extraction
  simp only
  split
  · exact P0
  · refine fold _ _ _ (fun x b hx kf hk => hx kf (erase x _ kf hk)) ?_
    refine fold _ _ _ (fun x b hx => setMock x _ hx) ?_
    refine fold _ _ _ (fun x b hx => setMock x _ hx) ?_
    refine fold _ _ _ (fun x b hx => ?_) P0
    split
    · exact hx
    · exact setMock x _ hx

theorem Only.toDict {C : RecClass W} (h : C.Src Q) {obj : Carrier W} (ho : ∀ n, Only Q (obj.attr n)) (o : ExportOpts)
    (sel : Sel W.Obj) : Only Q (toDict C obj o sel) := by
  unfold Records.toDict
  exact .bind (.generator (.exportTuples ho _ _ (extraction_src h sel))) fun _ => .pure _

/-- the errors that applying the Select can raise are in `Q` -/
def SelOnly (Q : ExcKind → Prop) (sel : Sel W.Obj) : Prop := ∀ m e, sel.applyTo m = .error e → Q e.kind

theorem SelOnly.empty : SelOnly (W := W) Q Sel.empty := by
  intro m e h
  unfold Sel.applyTo at h
  split at h
  · cases h
  · rename_i hc; exact absurd rfl hc

theorem Only.buildFrom {call : Dict W.Obj → M W (Res W)} (h : ∀ m, Only Q (call m)) {sel : Sel W.Obj} (hs : SelOnly Q sel)
    (m : Dict W.Obj) : Only Q (buildFrom call sel m) := by
  unfold Records.buildFrom
  split
  · rename_i e he; exact .throw (hs _ _ he)
  · exact h _

theorem Only.fromMapping {call : Dict W.Obj → M W (Res W)} (h : ∀ m, Only Q (call m)) {sel : Sel W.Obj} (hs : SelOnly Q sel)
    (maps : List (Dict W.Obj)) (kw : Dict W.Obj) : Only Q (fromMapping call sel maps kw) := by
  unfold Records.fromMapping
  exact .ite (fun _ => .tE) fun _ => .buildFrom h hs _

theorem Only.fromInstance {C : RecClass W} (hC : C.Src Q) {call : Dict W.Obj → M W (Res W)} (h : ∀ m, Only Q (call m))
    {sel : Sel W.Obj} (hs : SelOnly Q sel) {v : Carrier W} (hv : ∀ n, Only Q (v.attr n)) (maps : List (Dict W.Obj))
    (kw : Dict W.Obj) : Only Q (fromInstance C call sel v maps kw) := by
  unfold Records.fromInstance
  refine .ite (fun _ => .tE) fun _ => .ite (fun _ => .pure _) fun _ => .bind (.toDict hC hv _ _) fun d => ?_
  split
  · exact .bind (.buildFrom h hs _) fun _ => .pure _
  · exact .bind (.buildFrom h hs _) fun _ => .pure _
  · exact .tE

theorem Only.fromJson {E : Env W} {call : Dict W.Obj → M W (Res W)} (h : ∀ m, Only Q (call m))
    {sel : Sel W.Obj} (hs : SelOnly Q sel) {v : W.Obj} {kw : Dict W.Obj} (hj : Only Q (E.jsonLoads v kw))
    (hd : sel.truth.1 = true → ∀ j, Only Q (E.dictView j)) (hst : sel.truth.1 = false → ∀ j, Only Q (E.starView j)) :
    Only Q (fromJson E call sel v kw) := by
  unfold Records.fromJson
  refine .ite (fun _ => .tE) fun _ => .bind hj fun j => ?_
  exact .bind (.ite (fun h => hd h j) fun h => hst (by simpa using h) j) fun _ => .buildFrom h hs _

/-- `Q` together with all `Exception`s -/
def orException (Q : ExcKind → Prop) (k : ExcKind) : Prop := (⟨k, none⟩ : Exc).isException = true ∨ Q k

omit hQ in
theorem isException_kind (e : Exc) : (⟨e.kind, none⟩ : Exc).isException = e.isException := rfl

instance : OwnErrors (orException Q) := ⟨.inl rfl, .inl rfl, .inl rfl, fun _ => .inl rfl⟩

theorem OnlyBase.only {x : M W α} (h : OnlyBase Q x) : Only (orException Q) x := fun s e s' hx => h s e s' hx

theorem Parser.Only.run {E : Env W} (hE : E.Only Q) {C : RecClass W} (hC : C.Src (orException Q))
    {call : Dict W.Obj → M W (Res W)} (h : ∀ m, Records.Only (orException Q) (call m)) (v : W.Obj) {q : Parser W}
    (hq : q.Only Q) : Records.Only (orException Q) (q.run E C call v) := by
  cases q with
  | fromMapping => exact .bind (hE.chainView v).only fun _ => .fromMapping h SelOnly.empty _ _
  | fromInstance => exact .bind (.fromInstance hC h SelOnly.empty (fun n => (hE.getattr v n).only) _ _) fun _ => .pure _
  | fromJson => exact .fromJson h SelOnly.empty (hE.jsonLoads v _).only (fun h => by cases h) fun _ j => (hE.starView j).only
  | user f => exact (hq v).only

/-- a parser that raises anything but an `Exception` or `Q` is the only way for `parse` to raise more than TypeError -/
theorem Only.parseLoop {E : Env W} {C : RecClass W} {call : Dict W.Obj → M W (Res W)} (v : W.Obj) {ps : List (Parser W)}
    (hp : ∀ q ∈ ps, Only (orException Q) (q.run E C call v)) (succ : List (Res W)) :
    ∀ s e s', parseLoop E C call v ps succ s = (.error e, s') → e.isException = false ∧ Q e.kind := by
  induction ps generalizing succ with
  | nil => intro s e s' h; cases h
  | cons q ps ih =>
    have ih' := fun l => ih (fun q hq => hp q (.tail _ hq)) l
    intro s e s' hx
    rcases h1 : q.run E C call v s with ⟨r1, s1⟩
    simp only [Records.parseLoop, h1] at hx
    cases r1 with
    | ok w => exact ih' _ s1 e s' hx
    | error e1 =>
      simp only at hx
      split at hx
      · exact ih' _ s1 e s' hx
      · rename_i hb
        cases hx
        refine ⟨by simpa using hb, ?_⟩
        rcases hp q (.head _) s _ _ h1 with h2 | h2
        · exact absurd h2 hb
        · exact h2

theorem parseWith_raises {E : Env W} {C : RecClass W} {call : Dict W.Obj → M W (Res W)} {v : W.Obj}
    (hp : ∀ q ∈ C.parsers, Only (orException Q) (q.run E C call v)) {s : LState W} {e : Exc} {s' : LState W}
    (h : parseWith E C call v s = (.error e, s')) :
    e = .parseFailure ∨ e = .typeError ∨ e.isException = false ∧ Q e.kind := by
  unfold parseWith at h
  rcases h1 : Records.parseLoop E C call v C.parsers [] s with ⟨r, s1⟩
  cases r with
  | error e1 =>
    simp only [M.bind, h1] at h
    cases h
    exact .inr (.inr (Only.parseLoop v hp [] s _ _ h1))
  | ok l =>
    simp only [M.bind, h1] at h
    split at h
    · cases h; exact .inl rfl
    · cases h
    · cases h; exact .inr (.inl rfl)

theorem Only.parseWith {E : Env W} {C : RecClass W} {call : Dict W.Obj → M W (Res W)} {v : W.Obj}
    (hp : ∀ q ∈ C.parsers, Only (orException Q) (q.run E C call v)) : Only Q (parseWith E C call v) := by
  intro s e s' h
  rcases parseWith_raises hp h with h | h | h
  · rw [h]; exact hQ.parseFailure
  · rw [h]; exact hQ.typeError
  · exact h.2

omit hQ in
theorem orException_idem (k : ExcKind) (h : orException (orException Q) k) : orException Q k := by
  rcases h with h | h
  · exact .inl h
  · exact h

/-- with any recursion limit: an `Exception`, or `Q` -/
theorem Only.callN_base {E : Env W} (hW : W.Only Q) (hE : E.Only Q) {C : RecClass W} (hC : RaisesOnly Q C) (n : Nat)
    (arg : Option W.Obj) (kw : Dict W.Obj) : Only (orException Q) (callN E C n arg kw) := by
  have hg : C.Good (orException Q) := (hC.mono fun _ => .inr).good (hW.mono fun _ => .inr)
  have hps := (hC.src hW).parsers
  induction n generalizing arg kw with
  | zero => exact .throw (.inl rfl)
  | succ n ih =>
    refine .callCls C (fun a kw => .construct (fun n e h => .inr (hE.rewrap n e h)) hg (fun v => ?_) a kw) arg kw
    refine (Only.parseWith (Q := orException Q) fun q hm => ?_)
    exact ((hps q hm).run hE hg.toSrc (fun m => ih none m) v).mono fun _ => .inr

theorem Only.parsers {E : Env W} (hW : W.Only Q) (hE : E.Only Q) {C : RecClass W} (hC : RaisesOnly Q C) (n : Nat)
    (v : W.Obj) : ∀ q ∈ C.parsers, Only (orException Q) (q.run E C (fun m => Records.callN E C n none m) v) := by
  have hg : C.Good (orException Q) := (hC.mono fun _ => .inr).good (hW.mono fun _ => .inr)
  exact fun q hm => ((hC.src hW).parsers q hm).run hE hg.toSrc (fun m => .callN_base hW hE hC n none m) v

/-- with at least one level of recursion: `Q` -/
theorem Only.callN {E : Env W} (hW : W.Only Q) (hE : E.Only Q) {C : RecClass W} (hC : RaisesOnly Q C) (n : Nat)
    (arg : Option W.Obj) (kw : Dict W.Obj) : Only Q (callN E C (n + 1) arg kw) :=
  .callCls C (fun a kw => .construct hE.rewrap (hC.good hW) (fun v => .parseWith (Only.parsers hW hE hC n v)) a kw) arg kw

theorem Only.parseN {E : Env W} (hW : W.Only Q) (hE : E.Only Q) {C : RecClass W} (hC : RaisesOnly Q C) (n : Nat)
    (v : W.Obj) : Only Q (parseN E C n v) := .parseWith (Only.parsers hW hE hC n v)

end Records

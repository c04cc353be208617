import Verif.Proofs.Union
import Verif.Props.Hints
/-
C30-C33: Union fields.  All theorems are about a field declared `Annotated[Union[hs...], *args]` with tokens `pre`
applied in `pre_bind`, in a class with default style `d`.
-/
set_option linter.unusedSimpArgs false
namespace Records
variable {W : World}

/-- the field `Annotated[Union[hs...], *args]` -/
def unionField (d : Style) (pre args : List (Tok W)) (hs : List (Hint W)) : Except Exc (F W) :=
  makeFiller d (pre.map fun t => (none, t)) (.annotated (.union hs) args)

/-- The members' fillers. -/
inductive Members (d : Style) (toks : List (Tok W)) : List (Hint W) → List (F W) → Prop
  | nil : Members d toks [] []
  | cons {h hs b bs} : memberFiller d toks h = .ok b → Members d toks hs bs → Members d toks (h :: hs) (b :: bs)

/-- A union field is legal iff all members are legal with the tokens of the union; it holds the members' fillers. -/
theorem unionField_ok {d : Style} {pre args : List (Tok W)} {hs : List (Hint W)} {f : F W} :
    unionField d pre args hs = .ok f ↔ ∃ bs, Members d (args ++ pre) hs bs ∧ f = .union true args pre bs := by
  have hpre : ∀ app (subs : List (F W)), F.applyPre (.union false args app subs) (pre.map fun t => ((none : Option Int), t)) =
      .ok (.union false args (app ++ pre) subs) := by
    induction pre with
    | nil => intro app subs; simp [F.applyPre]
    | cons t ts ih =>
      intro app subs
      simp only [List.map_cons, F.applyPre, F.applySub, F.withSub, F.apply]
      simp [ih]
  have hmem : ∀ hs bs, Members d (args ++ pre) hs bs ↔
      ∃ fs, getFs hs = .ok fs ∧ F.bindUnion d (args ++ pre) fs = .ok bs := by
    intro hs
    induction hs with
    | nil =>
      intro bs
      constructor
      · intro h; cases h; exact ⟨[], by simp [getFs], by simp [F.bindUnion]⟩
      · rintro ⟨fs, h1, h2⟩
        simp [getFs] at h1; subst h1
        simp [F.bindUnion] at h2; subst h2
        exact .nil
    | cons h hs ih =>
      intro bs
      constructor
      · intro hm
        cases hm with
        | cons hb hbs =>
          obtain ⟨fs, h1, h2⟩ := (ih _).1 hbs
          unfold memberFiller getFiller at hb
          cases e : getF h none with
          | error e' => simp [e] at hb
          | ok g =>
            simp only [e] at hb
            refine ⟨g :: fs, by simp [getFs, e, h1], ?_⟩
            have hb' : F.applyBind d (args ++ pre) g = .ok _ := (F.applyBind_eq d (args ++ pre) g).trans hb
            simp [F.bindUnion, hb', h2]
      · rintro ⟨fs, h1, h2⟩
        simp only [getFs] at h1
        cases e : getF h none with
        | error e' => simp [e] at h1
        | ok g =>
          simp only [e] at h1
          cases e2 : getFs hs with
          | error e' => simp [e2] at h1
          | ok gs =>
            simp only [e2] at h1
            cases h1
            simp only [F.bindUnion] at h2
            cases e3 : F.applyBind d (args ++ pre) g with
            | error e' => simp [e3] at h2
            | ok b =>
              simp only [e3] at h2
              cases e4 : F.bindUnion d (args ++ pre) gs with
              | error e' => simp [e4] at h2
              | ok bs' =>
                simp only [e4] at h2
                cases h2
                refine .cons ?_ ((ih _).2 ⟨gs, e2, e4⟩)
                unfold memberFiller getFiller
                rw [F.applyBind_eq] at e3
                simp only [e]
                exact e3
  simp only [unionField, makeFiller, getFiller, getF]
  constructor
  · intro hf
    cases e : getFs hs with
    | error e' => simp [e] at hf
    | ok fs =>
      simp only [e, hpre, Option.getD_some, F.bind, List.nil_append] at hf
      simp at hf
      cases e2 : F.bindUnion d (args ++ pre) fs with
      | error e' => simp [e2] at hf
      | ok bs =>
        simp only [e2] at hf
        cases hf
        exact ⟨bs, (hmem hs bs).2 ⟨fs, e, e2⟩, rfl⟩
  · rintro ⟨bs, hm, rfl⟩
    obtain ⟨fs, h1, h2⟩ := (hmem hs bs).1 hm
    simp [h1, hpre, F.bind, h2]

/-- The exact result of filling a union field that is not entirely hollow, when every member returns or raises an
ordinary exception: it succeeds with `w` of kind `k` iff `k` is the best kind with which a member succeeded and all
members with that kind returned the very object `w`. -/
theorem C30_best {d : Style} {pre args : List (Tok W)} {hs : List (Hint W)} {f : F W} (hf : unionField d pre args hs = .ok f)
    {bs : List (F W)} (hm : Members d (args ++ pre) hs bs) (hh : ∃ b ∈ bs, b.isHollow = false)
    {v : W.Obj} {s s' : LState W} {rs : List (Except Exc (W.Obj × TPK))} (ht : AllTried v bs s rs s') (w : W.Obj) (k : TPK) :
    f.fill v s = (.ok (w, k), s') ↔ Best rs w k := by
  obtain ⟨bs', hm', rfl⟩ := unionField_ok.1 hf
  have : bs' = bs := by
    clear hf hh ht
    induction hm generalizing bs' with
    | nil => cases hm'; rfl
    | cons hb _ ih =>
      cases hm' with
      | cons hb' hbs' => rw [ih _ hbs']; rw [hb] at hb'; cases hb'; rfl
  subst this
  have hnh : F.allHollow bs' = false := by
    cases h : F.allHollow bs' with
    | false => rfl
    | true =>
      obtain ⟨b, hb, hbh⟩ := hh
      rw [F.allHollow_iff] at h
      rw [h b hb] at hbh
      cases hbh
  have key := unionLoop_tried ht (ps := []) (best := []) (key := none) (.inl ⟨rfl, rfl, by simp⟩)
  simp only [List.nil_append] at key
  simp only [F.fill, hnh]
  constructor
  · intro h; exact (key.2.1 w k s' h).1
  · intro h; exact key.1 w k h

theorem Members.unique {d : Style} {toks : List (Tok W)} {hs : List (Hint W)} {bs bs' : List (F W)}
    (h : Members d toks hs bs) (h' : Members d toks hs bs') : bs' = bs := by
  induction h generalizing bs' with
  | nil => cases h'; rfl
  | cons hb _ ih =>
    cases h' with
    | cons hb' hbs' => rw [ih hbs']; rw [hb] at hb'; cases hb'; rfl

/-- as `C30_best`, for the value stored in the record -/
theorem C30_stored {d : Style} {pre args : List (Tok W)} {hs : List (Hint W)} {f : F W} (hf : unionField d pre args hs = .ok f)
    {bs : List (F W)} (hm : Members d (args ++ pre) hs bs) (hh : ∃ b ∈ bs, b.isHollow = false)
    {v : W.Obj} {s s' : LState W} {rs : List (Except Exc (W.Obj × TPK))} (ht : AllTried v bs s rs s') (w : W.Obj) :
    f.call v s = (.ok w, s') ↔ ∃ k, Best rs w k := by
  rw [F.call_ok]
  exact exists_congr fun k => C30_best hf hm hh ht w k

/-- `Union[int, str]` under `check` with a `myInt` (inexact) and an int (exact); every member is tried. -/
example : ∃ f bs, unionField (W := Toy.W) .check [] [] [.cls .int, .cls .str] = .ok f ∧
    Members (W := Toy.W) .check [] [.cls .int, .cls .str] bs ∧
    AllTried (W := Toy.W) (.myInt 3) bs Toy.s0 [.ok (.myInt 3, .noCoerce), .error .typeError] Toy.s0 ∧
    Best (W := Toy.W) [.ok (.myInt 3, .noCoerce), .error .typeError] (.myInt 3) .noCoerce := by
  refine ⟨_, _, rfl, .cons rfl (.cons rfl .nil), .cons rfl (by simp) (.cons rfl ?_ (.nil _)), ?_⟩
  · intro e h; cases h; rfl
  · constructor
    · simp
    · intro x j h
      simp at h
      obtain ⟨rfl, rfl⟩ := h
      exact ⟨Nat.le_refl _, fun _ => rfl⟩

/-- Ambiguity raises ValueError; if no member matches, the exception of the last member is raised. -/
theorem C32_ambiguous {d : Style} {pre args : List (Tok W)} {hs : List (Hint W)} {f : F W} (hf : unionField d pre args hs = .ok f)
    {bs : List (F W)} (hm : Members d (args ++ pre) hs bs) (hh : ∃ b ∈ bs, b.isHollow = false)
    {v : W.Obj} {s s' : LState W} {rs : List (Except Exc (W.Obj × TPK))} (ht : AllTried v bs s rs s') :
    (Ambiguous rs → f.call v s = (.error .valueError, s')) ∧
    (∀ l e, rs = l ++ [.error e] → (∀ x j, .ok (x, j) ∉ rs) → f.call v s = (.error e, s')) := by
  obtain ⟨bs', hm', rfl⟩ := unionField_ok.1 hf
  have := hm.unique hm'
  subst this
  have hnh : F.allHollow bs' = false := by
    cases h : F.allHollow bs' with
    | false => rfl
    | true =>
      obtain ⟨b, hb, hbh⟩ := hh
      rw [F.allHollow_iff] at h
      rw [h b hb] at hbh
      cases hbh
  have key := unionLoop_tried ht (ps := []) (best := []) (key := none) (.inl ⟨rfl, rfl, by simp⟩)
  simp only [List.nil_append] at key
  simp only [F.call_error, F.fill, hnh]
  exact ⟨key.2.2.1, fun l e h1 h2 => key.2.2.2 h2 l e h1⟩

/-- `Union[Annotated[int, coerce to 1], Annotated[str, coerce to "a"]]` given None -/
example : ∃ f, unionField (W := Toy.W) .check [] [] [.annotated (.cls .int) [Toy.ctok (Toy.ret 1 (.int 1))],
      .annotated (.cls .str) [Toy.ctok (Toy.ret 2 (.str "a"))]] = .ok f ∧
    f.call .none Toy.s0 = (.error .valueError, ⟨[1, 2], fun _ => []⟩) := ⟨_, rfl, rfl⟩

/-- `Union[int, str]` given None: TypeError of the last member -/
example : ∃ f, unionField (W := Toy.W) .check [] [] [.cls .int, .annotated (.cls .str) [Toy.ctok (Toy.err 7 ⟨.user 3, none⟩)]] = .ok f ∧
    (f.call .none Toy.s0).1 = .error ⟨.user 3, none⟩ := ⟨_, rfl, rfl⟩

/-! ### C31 -/

/-- The filler has no side effects on `v`: in every state the outcome is `r` and the state is unchanged. -/
def Effectless (f : F W) (v : W.Obj) (r : Except Exc (W.Obj × TPK)) : Prop := ∀ s, f.fill v s = (r, s)

theorem Members.perm {d : Style} {toks : List (Tok W)} {hs hs' : List (Hint W)} (hp : hs.Perm hs') {bs : List (F W)}
    (h : Members d toks hs bs) : ∃ bs', bs.Perm bs' ∧ Members d toks hs' bs' := by
  induction hp generalizing bs with
  | nil => exact ⟨bs, .refl _, h⟩
  | cons x _ ih =>
    cases h with
    | cons hb hbs =>
      obtain ⟨bs', p, m⟩ := ih hbs
      exact ⟨_, .cons _ p, .cons hb m⟩
  | swap x y l =>
    cases h with
    | cons hb hbs =>
      cases hbs with
      | cons hb2 hbs2 => exact ⟨_, .swap _ _ _, .cons hb2 (.cons hb hbs2)⟩
  | trans _ _ ih1 ih2 =>
    obtain ⟨bs1, p1, m1⟩ := ih1 h
    obtain ⟨bs2, p2, m2⟩ := ih2 m1
    exact ⟨bs2, p1.trans p2, m2⟩

theorem Members.mem {d : Style} {toks : List (Tok W)} {hs : List (Hint W)} {bs : List (F W)} (h : Members d toks hs bs)
    {b : F W} (hb : b ∈ bs) : ∃ h ∈ hs, memberFiller d toks h = .ok b := by
  induction h with
  | nil => simp at hb
  | @cons h hs b' bs hb' _ ih =>
    rcases List.mem_cons.1 hb with rfl | hb
    · exact ⟨h, by simp, hb'⟩
    · obtain ⟨h', h1, h2⟩ := ih hb
      exact ⟨h', by simp [h1], h2⟩

theorem effectless_tried {v : W.Obj} {bs : List (F W)} {R : F W → Except Exc (W.Obj × TPK)}
    (he : ∀ b ∈ bs, Effectless b v (R b)) (hx : ∀ b ∈ bs, ∀ e, R b = .error e → e.isException = true) (s : LState W) :
    AllTried v bs s (bs.map R) s := by
  induction bs with
  | nil => exact .nil s
  | cons b bs ih =>
    exact .cons (he b (by simp) s) (hx b (by simp)) (ih (fun c hc => he c (by simp [hc])) fun c hc => hx c (by simp [hc]))

theorem tried_effectless {v : W.Obj} {bs : List (F W)} {R : F W → Except Exc (W.Obj × TPK)}
    (he : ∀ b ∈ bs, Effectless b v (R b)) {s s' : LState W} {rs : List (Except Exc (W.Obj × TPK))}
    (h : AllTried v bs s rs s') :
    rs = bs.map R ∧ s' = s ∧ ∀ b ∈ bs, ∀ e, R b = .error e → e.isException = true := by
  induction h with
  | nil s => simp
  | @cons f fs s r s1 rs s2 hf hex _ ih =>
    have h0 := he f (by simp) s
    rw [hf] at h0
    cases h0
    obtain ⟨h1, h2, h3⟩ := ih (fun c hc => he c (by simp [hc]))
    refine ⟨by rw [h1]; rfl, h2, ?_⟩
    intro b hb
    rcases List.mem_cons.1 hb with rfl | hb
    · exact hex
    · exact h3 b hb

theorem union_perm {args pre : List (Tok W)} {bs bs' : List (F W)} (hp : bs.Perm bs') {v : W.Obj}
    {R : F W → Except Exc (W.Obj × TPK)} (he : ∀ b ∈ bs, Effectless b v (R b)) {s s' : LState W} {w : W.Obj} {k : TPK}
    (h : F.fill (.union true args pre bs) v s = (.ok (w, k), s')) :
    F.fill (.union true args pre bs') v s = (.ok (w, k), s') := by
  have hh : F.allHollow bs = F.allHollow bs' := by
    rw [Bool.eq_iff_iff, F.allHollow_iff, F.allHollow_iff]
    exact ⟨fun h b hb => h b (hp.mem_iff.2 hb), fun h b hb => h b (hp.mem_iff.1 hb)⟩
  simp only [F.fill] at h ⊢
  rw [← hh]
  split at h
  · rename_i h0; simp only [h0, if_true]; exact h
  · rename_i h0
    simp only [h0]
    rcases tried_or_base v bs s with ⟨rs, s1, ht⟩ | ⟨e, s1, -, -, hrun⟩
    · obtain ⟨rfl, rfl, hx⟩ := tried_effectless he ht
      have k1 := unionLoop_tried ht (ps := []) (best := []) (key := none) (.inl ⟨rfl, rfl, by simp⟩)
      simp only [List.nil_append] at k1
      obtain ⟨hb, rfl⟩ := k1.2.1 w k s' h
      have ht' := effectless_tried (R := R) (v := v) (bs := bs') (fun b hb => he b (hp.mem_iff.2 hb))
        (fun b hb => hx b (hp.mem_iff.2 hb)) s'
      have k2 := unionLoop_tried ht' (ps := []) (best := []) (key := none) (.inl ⟨rfl, rfl, by simp⟩)
      simp only [List.nil_append] at k2
      refine k2.1 w k ⟨((hp.map R).mem_iff).1 hb.1, fun x j hxj => hb.2 x j (((hp.map R).mem_iff).2 hxj)⟩
    · rw [hrun] at h; cases h

/-- Permuting the members of a union: legal in both orders or in none; if the members have no side effects on `v`, then
whenever the union stores a value with some kind in one order, it does so in the other. -/
theorem C31_order {d : Style} {pre args : List (Tok W)} {hs hs' : List (Hint W)} (hp : hs.Perm hs') {f : F W}
    (hf : unionField d pre args hs = .ok f) :
    ∃ f', unionField d pre args hs' = .ok f' ∧ ∀ v : W.Obj,
      (∀ h ∈ hs, ∀ b, memberFiller d (args ++ pre) h = .ok b → ∃ r, Effectless b v r) →
      (∀ s w k s', f.fill v s = (.ok (w, k), s') ↔ f'.fill v s = (.ok (w, k), s')) ∧
      (∀ s w s', f.call v s = (.ok w, s') ↔ f'.call v s = (.ok w, s')) := by
  classical
  obtain ⟨bs, hm, rfl⟩ := unionField_ok.1 hf
  obtain ⟨bs', hpb, hm'⟩ := hm.perm hp
  refine ⟨_, unionField_ok.2 ⟨bs', hm', rfl⟩, fun v hpure => ?_⟩
  have hpure' : ∀ b ∈ bs, ∃ r, Effectless b v r := by
    intro b hb
    obtain ⟨h, h1, h2⟩ := hm.mem hb
    exact hpure h h1 b h2
  let R : F W → Except Exc (W.Obj × TPK) := fun b => if h : ∃ r, Effectless b v r then h.choose else .error .typeError
  have hR : ∀ b ∈ bs, Effectless b v (R b) := by
    intro b hb
    have h := hpure' b hb
    simp only [R, h, dif_pos]
    exact h.choose_spec
  have key : ∀ s w k s', F.fill (.union true args pre bs) v s = (.ok (w, k), s') ↔
      F.fill (.union true args pre bs') v s = (.ok (w, k), s') := fun s w k s' =>
    ⟨fun h => union_perm hpb hR h, fun h => union_perm hpb.symm (fun b hb => hR b (hpb.mem_iff.2 hb)) h⟩
  refine ⟨key, fun s w s' => ?_⟩
  rw [F.call_ok, F.call_ok]
  exact exists_congr fun k => key s w k s'

/-- `Union[int, str]` against `Union[str, int]`: the members have no side effects -/
example : [Hint.cls (W := Toy.W) .int, .cls .str].Perm [.cls .str, .cls .int] ∧
    (∃ f, unionField (W := Toy.W) .check [] [] [.cls .int, .cls .str] = .ok f) ∧
    ∃ b, memberFiller (W := Toy.W) .check [] (.cls .int) = .ok b ∧ Effectless b (.bool true) (.ok (.bool true, .noCoerce)) :=
  ⟨.swap _ _ _, ⟨_, rfl⟩, ⟨_, rfl, fun _ => rfl⟩⟩

/-- With side effects the order matters: here the coercer of one member looks at the log written by the other. -/
example : ∃ f f', unionField (W := Toy.W) .check [] []
      [.annotated (.cls .int) [Toy.ctok (Toy.ret 1 (.int 1))],
       .annotated (.cls .int) [Toy.ctok (Toy.moody 1 2)]] = .ok f ∧
    unionField (W := Toy.W) .check [] []
      [.annotated (.cls .int) [Toy.ctok (Toy.moody 1 2)],
       .annotated (.cls .int) [Toy.ctok (Toy.ret 1 (.int 1))]] = .ok f' ∧
    (f.call .none Toy.s0).1 = .error .valueError ∧ (f'.call .none Toy.s0).1 = .ok (.int 1) := ⟨_, _, rfl, rfl, rfl, rfl⟩

/-! ### C33 -/

/-- Exact behaviour of a union field with respect to validators: if every member is hollow, every value is stored and no
callback at all is run, whatever validators are attached; otherwise every member is tried in order on `v` (as in
`C30_best`) and the stored value is what one of them, `b`, returned in its turn. -/
theorem C33_exact {d : Style} {pre args : List (Tok W)} {hs : List (Hint W)} {f : F W} (hf : unionField d pre args hs = .ok f)
    {bs : List (F W)} (hm : Members d (args ++ pre) hs bs) :
    ((∀ b ∈ bs, b.isHollow = true) → ∀ v s, f.call v s = (.ok v, s)) ∧
    ((∃ b ∈ bs, b.isHollow = false) → ∀ v w s s', f.call v s = (.ok w, s') →
      ∃ before b after rs1 rs2 s1 s2, bs = before ++ b :: after ∧ AllTried v before s rs1 s1 ∧ b.call v s1 = (.ok w, s2) ∧
        AllTried v after s2 rs2 s') := by
  obtain ⟨bs', hm', rfl⟩ := unionField_ok.1 hf
  have := hm.unique hm'
  subst this
  constructor
  · intro h v s
    rw [← F.allHollow_iff] at h
    simp [F.call, F.fill, h, M.bind, M.pure]
  · rintro ⟨b0, hb0, hbh⟩ v w s s' hc
    obtain ⟨k, hk⟩ := F.call_ok.1 hc
    have hnh : F.allHollow bs' = false := by
      cases h : F.allHollow bs' with
      | false => rfl
      | true =>
        rw [F.allHollow_iff] at h
        rw [h b0 hb0] at hbh
        cases hbh
    simp only [F.fill, hnh] at hk
    rcases tried_or_base v bs' s with ⟨rs, s1, ht⟩ | ⟨e, s1, -, -, hrun⟩
    · have k1 := unionLoop_tried ht (ps := []) (best := []) (key := none) (.inl ⟨rfl, rfl, by simp⟩)
      simp only [List.nil_append] at k1
      obtain ⟨hb, hs⟩ := k1.2.1 w k s' hk
      subst hs
      have hmem := hb.1
      clear hb k1 hk hnh hbh hb0 hc hf hm hm'
      induction ht with
      | nil => simp at hmem
      | @cons g gs t r t1 rs t2 hg hx hrest ih =>
        rcases List.mem_cons.1 hmem with h | h
        · subst h
          exact ⟨[], g, gs, [], rs, t, t1, rfl, .nil _, F.call_ok.2 ⟨k, hg⟩, hrest⟩
        · obtain ⟨before, b, after, rs1, rs2, s1, s2, rfl, h1, h2, h3⟩ := ih h
          exact ⟨g :: before, b, after, r :: rs1, rs2, s1, s2, rfl, .cons hg hx h1, h2, h3⟩
    · simp only [if_neg Bool.false_ne_true] at hk
      rw [hrun] at hk; cases hk

/-- For class members: the stored value is the outcome of the validators of the union (those in `Annotated`, then those
from `pre_bind`), then those of the member, applied to the value `x` which the member without its validators (`a.bare`:
type check and coercion) made of the input `v` when its turn came (`s1`: the state the earlier members left). -/
theorem C33_validators {d : Style} {pre args : List (Tok W)} {ms : List (W.Cls × List (Tok W))} {f : F W}
    (hf : unionField d pre args (ms.map fun m => Hint.annotated (.cls m.1) m.2) = .ok f)
    (hh : ∃ m ∈ ms, styleOf d (args ++ pre ++ m.2) ≠ .hollow) {v w : W.Obj} {s s' : LState W}
    (hc : f.call v s = (.ok w, s')) :
    ∃ m ∈ ms, ∃ bs before after a rs1 rs2 s1 s3 s2 x,
      Members d (args ++ pre) (ms.map fun m => Hint.annotated (.cls m.1) m.2) bs ∧ bs = before ++ .ann a :: after ∧
      memberFiller d (args ++ pre) (.annotated (.cls m.1) m.2) = .ok (.ann a) ∧ AllTried v before s rs1 s1 ∧
      (F.ann a.bare).call v s1 = (.ok x, s3) ∧
      Pipeline (tokValidators (classKind m.1).origin (args ++ pre ++ m.2)) x s3 w s2 ∧ AllTried v after s2 rs2 s' := by
  obtain ⟨bs, hm, rfl⟩ := unionField_ok.1 hf
  have hmem : ∀ m ∈ ms, ∀ b, memberFiller d (args ++ pre) (Hint.annotated (.cls m.1) m.2) = .ok b →
      ∃ a, b = .ann a ∧ Ann.make d (classKind m.1) (args ++ pre) m.2 = .ok a := by
    intro m _ b hb
    simp only [memberFiller, getFiller, getF, F.applyAll_ann, classAnn, Option.getD_some] at hb
    cases h1 : Ann.applyAll ({ kind := classKind m.1, args := m.2 } : Ann W) (args ++ pre) with
    | error e => simp [h1, Except.map] at hb
    | ok a =>
      simp only [h1, Except.map, F.bind] at hb
      cases h2 : a.bind d with
      | error e => simp [h2, Except.map] at hb
      | ok a' =>
        simp only [h2, Except.map] at hb
        cases hb
        exact ⟨a', rfl, by simp [Ann.make, h1, h2]⟩
  have hnh : ∃ b ∈ bs, b.isHollow = false := by
    obtain ⟨m, hmm, hst⟩ := hh
    have : ∃ b ∈ bs, memberFiller d (args ++ pre) (Hint.annotated (.cls m.1) m.2) = .ok b := by
      clear hf hc hmem hst
      generalize hhs : (ms.map fun m => Hint.annotated (.cls m.1) m.2) = hs at hm
      induction hm generalizing ms with
      | nil => simp at hhs; subst hhs; simp at hmm
      | @cons h hs b bs hb _ ih =>
        cases ms with
        | nil => simp at hhs
        | cons m0 ms0 =>
          simp at hhs
          rcases List.mem_cons.1 hmm with rfl | hmm
          · exact ⟨b, by simp, by rw [hhs.1]; exact hb⟩
          · obtain ⟨b', h1, h2⟩ := ih hmm hhs.2
            exact ⟨b', by simp [h1], h2⟩
    obtain ⟨b, hb, hbm⟩ := this
    refine ⟨b, hb, ?_⟩
    obtain ⟨a, rfl, ha⟩ := hmem m hmm b hbm
    have := (Ann.make_ok ha).2.1
    simp only [F.isHollow, this]; simpa using hst
  obtain ⟨before, b, after, rs1, rs2, s1, s2, rfl, ht1, hcall, ht2⟩ := (C33_exact hf hm).2 hnh v w s s' hc
  obtain ⟨h, hhm, hbm⟩ := hm.mem (b := b) (by simp)
  obtain ⟨m, hmm, rfl⟩ := List.mem_map.1 hhm
  obtain ⟨a, rfl, ha⟩ := hmem m hmm b hbm
  obtain ⟨x, s3, hx, hp⟩ := (fill_stages a v w s1 s2).1 hcall
  have h4 := (Ann.make_ok ha).2.2.2.1
  have h5 : (classKind m.1).structural (styleOf d (args ++ pre ++ m.2)) = [] := by
    unfold classKind
    repeat' split
    all_goals rfl
  rw [h4, h5, List.append_nil] at hp
  exact ⟨m, hmm, _, before, after, a, rs1, rs2, s1, s3, s2, x, hm, rfl, hbm, ht1, hx, hp, ht2⟩

/-- Refutation of the expected claim: the validator attached to the union never sees the value. -/
theorem C33_refuted : ∃ f, unionField (W := Toy.W) .hollow [] [Toy.vtok (Toy.err 1 .valueError)] [.cls .int, .cls .str] = .ok f ∧
    f.call .none Toy.s0 = (.ok .none, Toy.s0) := ⟨_, rfl, rfl⟩

/-- a union with a checked member: the validator sees the value -/
example : ∃ f, unionField (W := Toy.W) .check [] [Toy.vtok (Toy.pass 1)] [.annotated (.cls .int) [], .annotated (.cls .str) []] = .ok f ∧
    f.call (.int 1) Toy.s0 = (.ok (.int 1), ⟨[1], fun _ => []⟩) := ⟨_, rfl, rfl⟩

end Records

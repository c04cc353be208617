import Verif.Spec.Invariant
import Verif.Proofs.New
import Verif.Proofs.Class
import Verif.Proofs.ClassMore
/-
An invariant of one field, through all routes of construction.
-/
namespace Records
variable {W : World}

theorem Res.notNone_eq {r st : Res W} (h : r.notNone = some st) : st = r := by
  cases r with
  | old v => 
    simp only [Res.notNone] at h
    split at h
    · cases h
    · exact (Option.some.inj h).symm
  | new i => cases h; rfl

/-- the result is not a new instance without the property -/
def Res.Good (k : String) (P : W.Obj → Prop) (r : Res W) : Prop := ∀ i, r = .new i → i.Holds k P

/-- all results of the computation are good -/
def GoodM (k : String) (P : W.Obj → Prop) (x : M W (Res W)) : Prop := ∀ s r s', x s = (.ok r, s') → r.Good k P

theorem Res.Good.old {k : String} {P : W.Obj → Prop} (v : W.Obj) : Res.Good k P (Res.old v) := nofun

theorem GoodM.pure {k : String} {P : W.Obj → Prop} {r : Res W} (h : r.Good k P) : GoodM k P (M.pure r) := by
  intro s r' s' e; cases e; exact h

theorem GoodM.throw {k : String} {P : W.Obj → Prop} {e : Exc} : GoodM k P (M.throw e : M W (Res W)) := by
  intro s r' s' e; cases e

theorem GoodM.bind {α : Type} {k : String} {P : W.Obj → Prop} {x : M W α} {g : α → M W (Res W)} (h : ∀ a, GoodM k P (g a)) :
    GoodM k P (M.bind x g) := by
  intro s r s' e
  rcases h1 : x s with ⟨e1 | a, s1⟩ <;> simp only [M.bind, h1] at e
  · cases e
  · exact h a s1 r s' e

theorem GoodM.bind' {k : String} {P : W.Obj → Prop} {x : M W (Res W)} {g : Res W → M W (Res W)} (hx : GoodM k P x)
    (h : ∀ a, a.Good k P → GoodM k P (g a)) : GoodM k P (M.bind x g) := by
  intro s r s' e
  rcases h1 : x s with ⟨e1 | a, s1⟩ <;> simp only [M.bind, h1] at e
  · cases e
  · exact h a (hx _ _ _ h1) s1 r s' e

section
variable {E : Env W} {C : RecClass W} {k : String} {P : W.Obj → Prop} {f : Field W}

/-- the value of the field, if it is set, has the property -/
def Ok (k : String) (P : W.Obj → Prop) (vals : Dict W.Obj) : Prop := Dict.WF vals ∧ ∀ w, Dict.get? vals k = some w → P w

theorem Ok.nil : Ok k P ([] : Dict W.Obj) := ⟨List.nodup_nil, nofun⟩

theorem Ok.set {vals : Dict W.Obj} (h : Ok k P vals) {k' : String} {w : W.Obj} (hw : k' = k → P w) : Ok k P (vals.set k' w) := by
  refine ⟨h.1.set _ _, ?_⟩
  intro w' e
  rw [Dict.get?_set] at e
  split at e
  · rename_i h'
    cases e; exact hw h'.symm
  · exact h.2 _ e

theorem fillLoop_inv (hf : C.fields.get? k = some f) (hfill : ∀ v s w s', f.filler.call v s = (.ok w, s') → P w)
    {st : Option (Res W)} (hst : ∀ r, st = some r → r.Good k P) : (kw acc : Dict W.Obj) → (s : LState W) → (x : Res W ⊕ Dict W.Obj) →
    (s' : LState W) → Ok k P acc → fillLoop E C.fields st kw acc s = (.ok x, s') →
    (∀ r, x = .inl r → r.Good k P) ∧
      ∀ vals, x = .inr vals → Ok k P vals ∧ ∀ k', k' ∈ Dict.keys vals ↔ k' ∈ Dict.keys acc ∨ k' ∈ Dict.keys kw
  | [], acc, s, x, s', ha, e => by
    simp only [fillLoop, M.pure] at e; cases e
    exact ⟨nofun, fun vals e => by cases e; exact ⟨ha, by simp⟩⟩
  | (k', v) :: kw, acc, s, x, s', ha, e => by
    simp only [fillLoop] at e
    split at e
    · cases e
    · rename_i g hg
      split at e
      · rename_i w s1 hc
        obtain ⟨h1, h2⟩ := fillLoop_inv hf hfill hst kw (acc.set k' w) s1 x s' (ha.set (fun h => by
          subst h; rw [hf] at hg; cases hg; exact hfill _ _ _ _ hc)) e
        refine ⟨h1, fun vals ev => ⟨(h2 vals ev).1, fun k'' => ?_⟩⟩
        rw [(h2 vals ev).2 k'', Dict.mem_keys_set, Dict.keys_cons, List.mem_cons]
        simp only [or_assoc, or_left_comm]
      · rename_i e1 s1 hc
        split at e
        · cases e
        · split at e
          · rename_i r
            cases e
            exact ⟨fun r' h => by cases h; exact hst _ rfl, nofun⟩
          · cases e

theorem defaultLoop_inv (hf : C.fields.get? k = some f) (hdef : ∀ d, f.default = some d → ∀ s w s', Makes d s (.ok w) s' → P w) :
    (ks : List String) → (acc : Dict W.Obj) → (s : LState W) → (vals : Dict W.Obj) →
    (s' : LState W) → Ok k P acc → defaultLoop C.fields ks acc s = (.ok vals, s') →
    Ok k P vals ∧ ∀ k', k' ∈ Dict.keys vals ↔ k' ∈ Dict.keys acc ∨ k' ∈ ks
  | [], acc, s, vals, s', ha, e => by
    simp only [defaultLoop, M.pure] at e; cases e
    exact ⟨ha, by simp⟩
  | k' :: ks, acc, s, vals, s', ha, e => by
    simp only [defaultLoop] at e
    cases hd : (C.fields.get? k').bind (·.default) with
    | none => rw [hd] at e; cases e
    | some d =>
      rw [hd] at e
      have hm := makes_total d s
      rcases h1 : d.make s with ⟨e1 | w, s1⟩ <;> simp only [M.bind, h1] at e hm
      · cases e
      · obtain ⟨h2, h3⟩ := defaultLoop_inv hf hdef ks (acc.set k' w) s1 vals s' (ha.set (fun h => by
          subst h; rw [hf] at hd; simp only [Option.bind_some] at hd; exact hdef d hd _ _ _ hm)) e
        refine ⟨h2, fun k'' => ?_⟩
        rw [h3 k'', Dict.mem_keys_set, List.mem_cons]
        simp only [or_assoc, or_left_comm]

theorem mkInst_holds {vals : Dict W.Obj} (h : Ok k P vals) (hk : k ∈ Dict.keys vals) : (mkInst C vals).Holds k P := by
  obtain ⟨w, hw⟩ := Option.isSome_iff_exists.1 ((Dict.get?_isSome_iff _ _).2 hk)
  refine ⟨w, ?_, h.2 w hw⟩
  unfold mkInst
  rw [update_nil_of_wf h.1]; exact hw

theorem finishNew_good (hR : Respects C k P) {i : Inst W} (hi : i.Holds k P) {st : Option (Res W)}
    (hst : ∀ r, st = some r → r.Good k P) : GoodM k P (finishNew C st i) := by
  intro s r s' e
  unfold finishNew at e
  split at e
  · rename_i i' r1 s1 hp
    obtain ⟨h1, h2⟩ := hR.post _ _ _ _ _ hp hi
    simp only at e
    split at e
    · cases e
    · cases e
      cases r1 with
      | none => intro j hj; cases hj; exact h1
      | some r1 =>
        intro j hj
        simp only at hj
        by_cases ht : r1.truthy C = true
        · rw [if_pos ht] at hj; exact h2 j (by rw [hj])
        · rw [if_neg ht] at hj; cases hj; exact h1
  · rename_i e1 s1 hp
    split at e
    · cases e
    · split at e
      · split at e
        · cases e; exact hst _ rfl
        · cases e
      · cases e

theorem newFields_good (wf : C.WF) (hf : C.fields.get? k = some f) (hfill : ∀ v s w s', f.filler.call v s = (.ok w, s') → P w)
    (hR : Respects C k P) {st : Option (Res W)} (hst : ∀ r, st = some r → r.Good k P) (kw : Dict W.Obj) :
    GoodM k P (newFields E C st kw) := by
  intro s r s' e
  unfold newFields at e
  split at e
  · cases e
  · rcases h1 : fillLoop E C.fields st kw [] s with ⟨e1 | x, s1⟩ <;> simp only [M.bind, h1] at e
    · cases e
    · obtain ⟨h2, h3⟩ := fillLoop_inv hf hfill hst kw [] s x s1 .nil h1
      cases x with
      | inl p =>
        simp only [M.pure] at e
        cases e; exact h2 _ rfl
      | inr vals =>
        obtain ⟨h4, h5⟩ := h3 _ rfl
        simp only at e
        by_cases hreq : (C.required.any fun k => !kw.has k) = true
        · rw [if_pos hreq] at e; cases e
        · rw [if_neg hreq] at e
          rcases h6 : defaultLoop C.fields (E.setOrder (C.optional.filter fun k => !kw.has k)) vals s1 with ⟨e2 | vals', s2⟩ <;>
            simp only [M.bind, h6] at e
          · cases e
          · obtain ⟨h7, h8⟩ := defaultLoop_inv hf (fun d hd => hR.default f d hf hd) _ _ _ _ _ h4 h6
            refine finishNew_good hR (mkInst_holds h7 ?_) hst _ _ _ e
            rw [h8, h5]
            by_cases hk : k ∈ Dict.keys kw
            · exact .inl (.inr hk)
            · cases hd : f.default with
              | none =>
                exfalso
                apply hreq
                simp only [List.any_eq_true]
                exact ⟨k, (wf.req k).2 ⟨f, hf, hd⟩, by simp [(Dict.has_eq_false_iff kw k).2 hk]⟩
              | some d =>
                exact .inr (((unsupplied_mem (E := E) wf (kw := kw)).2 k).2 ⟨(wf.opt k).2 ⟨f, d, hf, hd⟩, hk⟩)

theorem tryParse_good {parse : W.Obj → M W (Res W)} (hp : ∀ v, GoodM k P (parse v)) {a : W.Obj} {kw : Dict W.Obj} {s s' : LState W}
    {st : Option (Res W)} (e : tryParse C parse a kw s = (.ok st, s')) : ∀ r, st = some r → r.Good k P := by
  by_cases hu : (kw.isEmpty && C.unary) = true
  · have ht : tryParse C parse a kw = fun s => match parse a s with
        | (.ok r, s') => (.ok r.notNone, s')
        | (.error e, s') => if e.kind = .parseFailure ∧ C.required.length = 1 then (.ok none, s') else (.error e, s') := if_pos hu
    rw [ht] at e
    rcases h1 : parse a s with ⟨e1 | r, s1⟩ <;> simp only [h1] at e
    · split at e
      · cases e; nofun
      · cases e
    · cases e
      intro r' hr'
      have := Res.notNone_eq hr'
      subst this
      exact hp _ _ _ _ h1
  · have ht : tryParse C parse a kw = M.pure none := if_neg hu
    rw [ht] at e; cases e; nofun

theorem construct_good (wf : C.WF) (hf : C.fields.get? k = some f) (hfill : ∀ v s w s', f.filler.call v s = (.ok w, s') → P w)
    (hR : Respects C k P) {parse : W.Obj → M W (Res W)} (hp : ∀ v, GoodM k P (parse v)) (arg : Option W.Obj) (kw : Dict W.Obj) :
    GoodM k P (construct E C parse arg kw) := by
  unfold construct
  cases arg with
  | none => exact newFields_good wf hf hfill hR (fun _ h => by cases h) kw
  | some a =>
    intro s r s' e
    rcases h1 : tryParse C parse a kw s with ⟨e1 | st, s1⟩ <;> simp only [M.bind, h1] at e
    · cases e
    · have hst := tryParse_good hp h1
      generalize C.required = req at e
      revert e
      split
      · split
        · intro e; cases e
        · exact fun e => newFields_good wf hf hfill hR hst _ _ _ _ e
      · split
        · intro e; cases e; exact hst _ rfl
        · intro e; cases e

theorem callCls_good {new : Option W.Obj → Dict W.Obj → M W (Res W)} (hn : ∀ a kw, GoodM k P (new a kw)) (arg : Option W.Obj)
    (kw : Dict W.Obj) : GoodM k P (callCls C new arg kw) := by
  have hi : ∀ (r : Res W), r.Good k P → GoodM k P (callCls.init C kw r) := by
    intro r hr
    unfold callCls.init
    split
    · exact .throw
    · exact .pure hr
  unfold callCls
  split
  · exact .throw
  · split
    · exact .throw
    · exact (hn _ _).bind' hi
    · exact (hn _ _).bind' hi

theorem buildFrom_good {call : Dict W.Obj → M W (Res W)} (hc : ∀ m, GoodM k P (call m)) (sel : Sel W.Obj) (m : Dict W.Obj) :
    GoodM k P (buildFrom call sel m) := by
  unfold buildFrom
  split
  · exact .throw
  · exact hc _

theorem fromMapping_good {call : Dict W.Obj → M W (Res W)} (hc : ∀ m, GoodM k P (call m)) (sel : Sel W.Obj) (maps : List (Dict W.Obj))
    (kw : Dict W.Obj) : GoodM k P (fromMapping call sel maps kw) := by
  unfold fromMapping
  split
  · exact .throw
  · exact buildFrom_good hc _ _

theorem fromJson_good {call : Dict W.Obj → M W (Res W)} (hc : ∀ m, GoodM k P (call m)) (sel : Sel W.Obj) (v : W.Obj)
    (kw : Dict W.Obj) : GoodM k P (fromJson E call sel v kw) := by
  unfold fromJson
  split
  · exact .throw
  · exact .bind fun _ => .bind fun _ => buildFrom_good hc _ _

theorem fromInstance_good {call : Dict W.Obj → M W (Res W)} (hc : ∀ m, GoodM k P (call m)) {sel : Sel W.Obj} {v : Carrier W}
    {maps : List (Dict W.Obj)} {kw : Dict W.Obj} {s s' : LState W} {r : Res W}
    (e : fromInstance C call sel v maps kw s = (.ok (some r), s')) : r.Good k P := by
  unfold fromInstance at e
  split at e
  · cases e
  · split at e
    · cases e
    · rcases h1 : toDict C v {} sel s with ⟨e1 | d, s1⟩ <;> simp only [M.bind, h1] at e
      · cases e
      · rcases maps with _ | ⟨m, _ | ⟨m', ms⟩⟩
        · rcases h2 : buildFrom call sel (d.update kw) s1 with ⟨e2 | r2, s2⟩ <;> simp only [M.bind, h2] at e
          · cases e
          · cases e; exact buildFrom_good hc _ _ _ _ _ h2
        · rcases h2 : buildFrom call sel ((d.update m).update kw) s1 with ⟨e2 | r2, s2⟩ <;> simp only [M.bind, h2] at e
          · cases e
          · cases e; exact buildFrom_good hc _ _ _ _ _ h2
        · cases e

theorem run_good (hR : Respects C k P) {call : Dict W.Obj → M W (Res W)} (hc : ∀ m, GoodM k P (call m)) {p : Parser W}
    (hp : p ∈ C.parsers) (v : W.Obj) : GoodM k P (p.run E C call v) := by
  cases p with
  | fromMapping => exact .bind fun _ => fromMapping_good hc _ _ _
  | fromInstance =>
    intro s r s' e
    simp only [Parser.run] at e
    rcases h1 : fromInstance C call Sel.empty (Carrier.ofObj E v) [] [] s with ⟨e1 | x, s1⟩ <;> simp only [M.bind, h1] at e
    · cases e
    · cases e
      cases x with
      | none => exact .old v
      | some r => exact fromInstance_good hc h1
  | fromJson => exact fromJson_good hc _ _ _
  | user g =>
    intro s r s' e i hi
    subst hi
    exact hR.parsers g hp v s i s' e

theorem parseLoop_good (hR : Respects C k P) {call : Dict W.Obj → M W (Res W)} (hc : ∀ m, GoodM k P (call m)) (v : W.Obj) :
    (ps : List (Parser W)) → (∀ p ∈ ps, p ∈ C.parsers) → (succ : List (Res W)) → (∀ r ∈ succ, r.Good k P) → (s : LState W) →
    (out : List (Res W)) → (s' : LState W) → parseLoop E C call v ps succ s = (.ok out, s') → ∀ r ∈ out, r.Good k P
  | [], _, succ, hs, s, out, s', e => by
    simp only [parseLoop, M.pure] at e
    cases e; exact hs
  | p :: ps, hps, succ, hs, s, out, s', e => by
    rcases h1 : p.run E C call v s with ⟨e1 | r, s1⟩ <;> simp only [parseLoop, h1] at e
    · split at e
      · exact parseLoop_good hR hc v ps (fun p hp => hps p (by simp [hp])) succ hs _ _ _ e
      · cases e
    · refine parseLoop_good hR hc v ps (fun p hp => hps p (by simp [hp])) _ ?_ _ _ _ e
      intro r' hr'
      rcases List.mem_append.1 hr' with h | h
      · exact hs _ h
      · have : r' = r := by simpa using h
        subst this
        exact run_good hR hc (hps p (by simp)) v _ _ _ h1

theorem parseWith_good (hR : Respects C k P) {call : Dict W.Obj → M W (Res W)} (hc : ∀ m, GoodM k P (call m)) (v : W.Obj) :
    GoodM k P (parseWith E C call v) := by
  intro s r s' e
  unfold parseWith at e
  rcases h1 : parseLoop E C call v C.parsers [] s with ⟨e1 | out, s1⟩ <;> simp only [M.bind, h1] at e
  · cases e
  · have := parseLoop_good hR hc v C.parsers (fun _ h => h) [] nofun s out s1 h1
    split at e
    · cases e
    · cases e; exact this _ (by simp)
    · cases e

theorem callN_good (wf : C.WF) (hf : C.fields.get? k = some f) (hfill : ∀ v s w s', f.filler.call v s = (.ok w, s') → P w)
    (hR : Respects C k P) : (n : Nat) → (arg : Option W.Obj) → (kw : Dict W.Obj) → GoodM k P (callN E C n arg kw)
  | 0, _, _ => .throw
  | n + 1, _, _ => callCls_good (fun _ _ => construct_good wf hf hfill hR
      (fun v => parseWith_good hR (fun _ => callN_good wf hf hfill hR n none _) v) _ _) _ _

theorem obtained_holds (wf : C.WF) (hf : C.fields.get? k = some f) (hfill : ∀ v s w s', f.filler.call v s = (.ok w, s') → P w)
    (hR : Respects C k P) {i : Inst W} (h : Obtained E C i) : i.Holds k P := by
  have hc : ∀ n m, GoodM k P (callN E C n none m) := fun n m => callN_good wf hf hfill hR n none m
  cases h with
  | call e => exact callN_good wf hf hfill hR _ _ _ _ _ _ e _ rfl
  | parse e => exact parseWith_good hR (hc _) _ _ _ _ e _ rfl
  | fromMapping e => exact fromMapping_good (hc _) _ _ _ _ _ _ e _ rfl
  | fromInstance e => exact fromInstance_good (hc _) e _ rfl
  | fromJson e => exact fromJson_good (hc _) _ _ _ _ _ _ e _ rfl
  | @fromPickle n loads s i s' e =>
    unfold fromPickleN at e
    rcases h1 : loads s with ⟨e1 | v, s1⟩ <;> simp only [M.bind, h1] at e
    · cases e
    · split at e
      · cases e
      · exact parseWith_good hR (hc _) _ _ _ _ e _ rfl
  | copy e =>
    unfold copyInst at e
    split at e
    · cases e
    · exact fromInstance_good (hc _) e _ rfl
  | deepcopy e =>
    refine GoodM.bind (fun d => .bind fun d' => ?_) _ _ _ e _ rfl
    exact fromMapping_good (hc _) _ _ _

end

end Records

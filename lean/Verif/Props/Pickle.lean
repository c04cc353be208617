import Verif.Props.Roundtrip
set_option linter.unusedSimpArgs false
/-
C81-C83: pickling and `repr`.
-/
namespace Records
variable {W : World}

theorem keys_mapValues {V V' : Type} (f : V → V') (d : Dict V) : (mapValues f d).map (·.1) = d.map (·.1) := by
  unfold mapValues; rw [List.map_map]; rfl

theorem get?_mapValues {V V' : Type} (f : V → V') (d : Dict V) (k : String) : Dict.get? (mapValues f d) k = (d.get? k).map f := by
  induction d with
  | nil => rfl
  | cons a d ih =>
    obtain ⟨k', v⟩ := a
    show Dict.get? ((k', f v) :: mapValues f d) k = _
    simp only [Dict.get?_cons, ih]
    split <;> rfl

theorem mem_mapValues {V V' : Type} {f : V → V'} {d : Dict V} {k : String} {w : V'} :
    (k, w) ∈ mapValues f d ↔ ∃ v, (k, v) ∈ d ∧ w = f v := by
  unfold mapValues
  rw [List.mem_map]
  constructor
  · rintro ⟨⟨k', v⟩, h, e⟩; cases e; exact ⟨v, h, rfl⟩
  · rintro ⟨v, h, rfl⟩; exact ⟨(k, v), h, rfl⟩

/-- `cls.__new__(cls, **kw)` is `newFields` for free names -/
theorem newKw_free {E : Env W} {C : RecClass W} (hfree : FreeNames C) {parse : W.Obj → M W (Res W)} {kw : Dict W.Obj}
    (hm : ∀ k ∈ kw.map (·.1), k ∈ C.fields.map (·.1)) : newKw (construct E C parse) kw = newFields E C none kw := by
  have hno : ∀ k ∈ ["self", "cls", "arg"], k ∉ kw.keys := fun k hk hkm => hfree k (hm k hkm) hk
  unfold newKw
  rw [(Dict.has_eq_false_iff kw "cls").2 (hno _ (by simp)), (Dict.get?_eq_none_iff _ "arg").2 (hno _ (by simp))]
  rfl

theorem shown_keys {C : RecClass W} (i : Inst W) : ∀ k ∈ (shown C i).map (·.1), k ∈ C.fields.map (·.1) := by
  intro k hk
  obtain ⟨⟨k, v⟩, hkv, rfl⟩ := List.mem_map.1 hk
  unfold shown at hkv
  obtain ⟨⟨k', f⟩, hkf, he⟩ := List.mem_filterMap.1 hkv
  refine List.mem_map.2 ⟨(k', f), hkf, ?_⟩
  split at he
  · cases he
  · split at he
    · cases he
    · cases he; rfl

/-- `cls.__new__(cls, **kw)` does what `cls(**kw)` does unless there is a keyword `self` (which only `__init__` refuses) -/
theorem newKw_callN (E : Env W) (C : RecClass W) (n : Nat) {kw : Dict W.Obj} (hs : "self" ∉ kw.map (·.1)) (t : LState W) :
    newKw (construct E C (parseN E C n)) kw t = callN E C (n + 1) none kw t := by
  have hi : ∀ r : Res W, callCls.init C kw r = M.pure r := by
    intro r
    have : kw.has "self" = false := (Dict.has_eq_false_iff kw _).2 hs
    unfold callCls.init
    rw [this, Bool.and_false]
    rfl
  have hb : ∀ x : M W (Res W), M.bind x (callCls.init C kw) = x := by
    intro x
    funext t
    unfold M.bind
    rcases x t with ⟨e | r, t1⟩
    · rfl
    · exact congrFun (hi r) t1
  show newKw (construct E C (parseN E C n)) kw t = callCls C (construct E C (parseN E C n)) none kw t
  unfold newKw callCls
  split
  · rfl
  · cases kw.get? "arg" <;> simp only [hb]

theorem self_free {C : RecClass W} (h : "self" ∉ C.fields.map (·.1)) (codec : W.Obj → W.Obj) (i : Inst W) :
    "self" ∉ (mapValues codec (shown C i)).map (·.1) := by
  rw [keys_mapValues]
  exact fun hk => h (shown_keys i _ hk)

/-- what pickling stores of a record with all its fields -/
theorem reduceInst_full {E : Env W} {C : RecClass W} (wf : C.WF) {i : Inst W} (hi : Full C i) (s : LState W) :
    reduceInst E C i s = (.ok ⟨shown C i, i.dict, i.hash⟩, s) := by
  unfold reduceInst
  simp only [M.bind, toDict_shown wf hi, M.pure]

/-! ### C81 -/

/-- C81: unpickling does `C(**kwargs)` with the (unpickled) exported fields: if that raises, unpickling raises the same. -/
theorem C81_fails {E : Env W} {C : RecClass W} (hC : Creatable C) (hself : "self" ∉ C.fields.map (·.1)) {i : Inst W} (hi : Full C i)
    (codec : W.Obj → W.Obj) (n : Nat) (s t : LState W) :
    ∃ p, reduceInst E C i s = (.ok p, s) ∧ ∀ e t',
      unpickleInst E C n codec p t = (.error e, t') ↔ callN E C (n + 1) none (mapValues codec (shown C i)) t = (.error e, t') := by
  refine ⟨_, reduceInst_full hC.wf hi s, fun e t' => ?_⟩
  unfold unpickleInst
  simp only [M.bind]
  rw [newKw_callN E C n (self_free hself codec i)]
  rcases callN E C (n + 1) none (mapValues codec (shown C i)) t with ⟨r, t1⟩
  cases r with
  | error e' => rfl
  | ok r => cases r <;> simp [M.pure]

/-- C81: whatever `C(**kwargs)` makes of the exported fields (with non-idempotent fillers or an active `post_new`): the attributes of the
unpickled record are the (unpickled) attributes of the original; only attributes that the original lacks are those of the re-constructed
instance. -/
theorem C81_attributes {E : Env W} {C : RecClass W} (hC : Creatable C) (hself : "self" ∉ C.fields.map (·.1)) {i : Inst W} (hi : Full C i)
    (hd : (i.dict.map (·.1)).Nodup) (codec : W.Obj → W.Obj) (n : Nat) (s t : LState W) {j : Inst W} {t' : LState W}
    (hj : callN E C (n + 1) none (mapValues codec (shown C i)) t = (.ok (.new j), t')) :
    ∃ p j', reduceInst E C i s = (.ok p, s) ∧ unpickleInst E C n codec p t = (.ok (.new j'), t') ∧ j'.cid = j.cid ∧
      (∀ k v, i.dict.get? k = some v → j'.dict.get? k = some (codec v)) ∧
      (∀ k, i.dict.get? k = none → j'.dict.get? k = j.dict.get? k) ∧
      j'.hash = match i.hash with | some h => some h | none => j.hash := by
  have hwf : Dict.WF (mapValues codec i.dict) := by unfold Dict.WF Dict.keys; rw [keys_mapValues]; exact hd
  refine ⟨_, { j with dict := j.dict.update (mapValues codec i.dict), hash := match i.hash with | some h => some h | none => j.hash },
    reduceInst_full hC.wf hi s, ?_, rfl, ?_, ?_, rfl⟩
  · unfold unpickleInst
    simp only [M.bind]
    rw [newKw_callN E C n (self_free hself codec i), hj]
    simp only [M.pure]
    cases i.hash <;> rfl
  · intro k v hv
    simp only
    rw [Dict.get?_update _ _ hwf, get?_mapValues, hv]
    rfl
  · intro k hv
    simp only
    rw [Dict.get?_update _ _ hwf, get?_mapValues, hv]
    rfl

/-- C81: if `post_new` does nothing and the re-construction succeeds, the unpickled record is of the same class and has exactly the
(unpickled) attributes of the original, even if the fillers are not idempotent. -/
theorem C81_exact {E : Env W} {C : RecClass W} (hC : Creatable C) (hpost : PlainPost C) (hfree : FreeNames C) {i : Inst W}
    (hi : Full C i) (hd : (i.dict.map (·.1)).Nodup) (codec : W.Obj → W.Obj) (n : Nat) (s t : LState W) {r : Res W} {t' : LState W}
    (hr : callN E C (n + 1) none (mapValues codec (shown C i)) t = (.ok r, t')) :
    ∃ p j, reduceInst E C i s = (.ok p, s) ∧ unpickleInst E C n codec p t = (.ok (.new j), t') ∧ j.cid = C.cid ∧
      ∀ k, j.dict.get? k = (i.dict.get? k).map codec := by
  have hk : ∀ k ∈ (mapValues codec (shown C i)).map (·.1), k ∈ C.fields.map (·.1) := by
    rw [keys_mapValues]; exact shown_keys i
  have hn : ((mapValues codec (shown C i)).map (·.1)).Nodup := by
    rw [keys_mapValues]
    obtain ⟨d, h1, hcov⟩ := export_covers (E := E) hC hi (o := {}) (black := []) rfl
      (by intro k f v _ _ _; exact .inr (by simp)) s
    rw [toDict_shown hC.wf hi] at h1; cases h1
    exact hcov.nodup
  have hr' := hr
  rw [callN_free hfree hk] at hr'
  obtain ⟨j, rfl, h1, h2, _⟩ := C49_keyword_construction (E := E) (parse := fun _ => M.throw .parseFailure) hC hn hpost hr'
  obtain ⟨p, j', hp, hu, hc, ha, hb, _⟩ := C81_attributes hC (fun h => hfree _ h (by simp)) hi hd codec n s t hr
  refine ⟨p, j', hp, hu, hc.trans h1, fun k => ?_⟩
  cases hv : i.dict.get? k with
  | some v => exact ha k v hv
  | none =>
    rw [hb k hv]
    have : k ∉ j.dict.map (·.1) := fun h => by
      obtain ⟨v, hv'⟩ := hi.get (h2.mem_iff.1 h)
      rw [hv] at hv'; cases hv'
    exact (Dict.get?_eq_none_iff _ _).2 this

/-- the unpickled values are equal, kept by the fillers, and hashable where they need to be -/
structure GoodCodec (C : RecClass W) (i : Inst W) (codec : W.Obj → W.Obj) : Prop where
  eq : ∀ k v, i.dict.get? k = some v → k ∈ C.fields.map (·.1) → W.eq v (codec v) = true
  keeps : ∀ k f v, (k, f) ∈ C.fields → i.dict.get? k = some v → f.Keeps (codec v)
  hashable : C.frozen = true → ∀ k v, i.dict.get? k = some v → k ∈ C.fields.map (·.1) → W.hashable (codec v) = true

/-- C81: unpickling succeeds if the fillers keep the unpickled values. -/
theorem C81_succeeds {E : Env W} {C : RecClass W} (hC : Creatable C) (hpost : PlainPost C) (hfree : FreeNames C)
    {i : Inst W} (hi : Full C i) (hd : (i.dict.map (·.1)).Nodup) {codec : W.Obj → W.Obj} (hc : GoodCodec C i codec) (n : Nat)
    (s t : LState W) :
    ∃ p j t', reduceInst E C i s = (.ok p, s) ∧ unpickleInst E C n codec p t = (.ok (.new j), t') ∧ j.cid = C.cid ∧
      (∀ k, j.dict.get? k = (i.dict.get? k).map codec) ∧ SameFields C i j ∧
      j.hash = match i.hash with | some h => some h | none => if C.frozen then some none else none := by
  have hk : ∀ k ∈ (mapValues codec (shown C i)).map (·.1), k ∈ C.fields.map (·.1) := by
    rw [keys_mapValues]; exact shown_keys i
  obtain ⟨d, h1, hcov⟩ := export_covers (E := E) hC hi (o := {}) (black := []) rfl
    (by intro k f v _ _ _; exact .inr (by simp)) s
  rw [toDict_shown hC.wf hi] at h1; cases h1
  have hr : Restores (shown C i) (mapValues codec (shown C i)) := by
    refine ⟨by rw [keys_mapValues]; exact hcov.nodup, by rw [keys_mapValues]; exact fun _ h => h, ?_⟩
    intro k v hkv
    exact ⟨codec v, mem_mapValues.2 ⟨v, hkv, rfl⟩, hc.eq k v (hcov.own k v hkv).2 (hcov.own k v hkv).1⟩
  have hdesc := hcov.describes hr (by
    intro k f w hkf hkw
    obtain ⟨v, hv, rfl⟩ := mem_mapValues.1 hkw
    exact hc.keeps k f v hkf (hcov.own k v hv).2)
  obtain ⟨j0, t', hj0, _, _, _, _, hh⟩ := rebuild_new (E := E) hC.wf hpost hi hdesc t
  have hcall : callN E C (n + 1) none (mapValues codec (shown C i)) t = (.ok (.new j0), t') := by rw [callN_free hfree hk]; exact hj0
  obtain ⟨p, j, hp, hu, hcid, hattr⟩ := C81_exact hC hpost hfree hi hd codec n s t hcall
  obtain ⟨p', j', hp', hu', _, _, _, hhash⟩ := C81_attributes hC (fun h => hfree _ h (by simp)) hi hd codec n s t hcall
  rw [hp] at hp'; cases hp'
  rw [hu] at hu'; cases hu'
  refine ⟨p, j, t', hp, hu, hcid, hattr, ?_, by rw [hhash, hh]⟩
  intro k hk
  obtain ⟨v, hv⟩ := hi.get hk
  exact ⟨v, codec v, hv, by rw [hattr, hv]; rfl, hc.eq k v hv hk⟩

/-! ### C82 -/

/-- C82: a record whose hash was not cached when it was pickled (so also: any non-frozen record) is unpickled, in whatever process, to a
record that equals exactly the records the original has equal fields with. -/
theorem C82_uncached {E : Env W} {H : Hasher W} (hW : EqOK W) (hH : HashContract H) {C : RecClass W} (hC : Creatable C)
    (hpost : PlainPost C) (hfree : FreeNames C) {i : Inst W} (hi : Full C i) (hd : (i.dict.map (·.1)).Nodup)
    (hh : C.frozen = true → i.hash = some none) {codec : W.Obj → W.Obj} (hc : GoodCodec C i codec) (n : Nat) (s t : LState W) :
    ∃ p j t', reduceInst E C i s = (.ok p, s) ∧ unpickleInst E C n codec p t = (.ok (.new j), t') ∧ Proper H C j ∧
      ∀ b, Proper H C b → (Equal E H C j b ↔ SameFields C i b) := by
  obtain ⟨p, j, t', hp, hu, hcid, hattr, hsame, hhash⟩ := C81_succeeds (E := E) hC hpost hfree hi hd hc n s t
  have hprop : Proper H C j := by
    refine ⟨hcid, ?_, ?_, ?_⟩
    · intro k hk
      obtain ⟨v, hv⟩ := hi.get hk
      exact (Dict.get?_isSome_iff _ _).1 (by rw [hattr, hv]; rfl)
    · intro hf kv hkv
      unfold shown at hkv
      obtain ⟨⟨k, f⟩, hkf, he⟩ := List.mem_filterMap.1 hkv
      have hk : k ∈ C.fields.map (·.1) := List.mem_map.2 ⟨_, hkf, rfl⟩
      obtain ⟨v, hv⟩ := hi.get hk
      simp only [hattr, hv, Option.map_some] at he
      split at he
      · cases he
      · cases he; exact hc.hashable hf k v hv hk
    · intro hf
      rw [hh hf] at hhash
      exact .inl hhash
  refine ⟨p, j, t', hp, hu, hprop, fun b hb => ?_⟩
  have : SameFields C j b ↔ SameFields C i b := by
    constructor <;> intro h k hk <;> obtain ⟨v, w, h1, h2, h3⟩ := h k hk <;> obtain ⟨v', w', h4, h5, h6⟩ := hsame k hk
    · rw [h1] at h5; cases h5; exact ⟨v', w, h4, h2, hW.trans h6 h3⟩
    · rw [h1] at h4; cases h4; exact ⟨w', w, h5, h2, hW.trans (hW.symm h6) h3⟩
  constructor
  · intro h; exact this.1 ((equal_iff hW hH hC hprop hb s).1 (h s))
  · intro h s; exact (equal_iff hW hH hC hprop hb s).2 (this.2 h)

/-- C82: if the hash was cached when the record was pickled, the unpickled record equals a record with equal fields iff that has the
same hash in the process in which they are compared. -/
theorem C82_cached {E : Env W} {H : Hasher W} (hW : EqOK W) {C : RecClass W} (hC : Creatable C) (hf : C.frozen = true)
    (hpost : PlainPost C) (hfree : FreeNames C) {i : Inst W} (hi : Full C i) (hd : (i.dict.map (·.1)).Nodup) {h : Int}
    (hh : i.hash = some (some h)) {codec : W.Obj → W.Obj} (hc : GoodCodec C i codec) (n : Nat) (s t : LState W) :
    ∃ p j t', reduceInst E C i s = (.ok p, s) ∧ unpickleInst E C n codec p t = (.ok (.new j), t') ∧
      ∀ b, Proper H C b → SameFields C i b → (Equal E H C j b ↔ recordHash H C b = h) := by
  obtain ⟨p, j, t', hp, hu, hcid, hattr, hsame, hhash⟩ := C81_succeeds (E := E) hC hpost hfree hi hd hc n s t
  refine ⟨p, j, t', hp, hu, fun b hb hib => ?_⟩
  have hjb : SameFields C j b := by
    intro k hk
    obtain ⟨v, w, h1, h2, h3⟩ := hib k hk
    obtain ⟨v', w', h4, h5, h6⟩ := hsame k hk
    rw [h1] at h4; cases h4
    exact ⟨w', w, h5, h2, hW.trans (hW.symm h6) h3⟩
  obtain ⟨r, hr, hr'⟩ := eqFields_spec (E := E) (a := j) (b := b) (ks := C.fields.keys)
    (fun k hk => by obtain ⟨v, _, h1, _⟩ := hjb k hk; exact ⟨v, h1⟩) (fun k hk => hb.full.get hk)
  have hrt : r = true := hr'.2 hjb
  have e : ∀ s, eqInst E H C j b s = (if h ≠ recordHash H C b then .ok false else .ok true, j,
      { b with hash := some (some (recordHash H C b)) }, s) := by
    intro s
    have hh' : hashInst E H C j s = (.ok h, j, s) := by
      unfold hashInst
      rw [hf, hhash, hh]
      rfl
    unfold eqInst
    rw [if_neg (by simp [hcid, hb.cls]), if_pos hf, hh']
    simp only [hashInst_proper hC.wf hf hb, hr, hrt]
  constructor
  · intro heq
    have := heq s
    rw [e] at this
    simp only at this
    by_cases hx : h = recordHash H C b
    · exact hx.symm
    · rw [if_pos hx] at this; cases this
  · intro hx s
    rw [e, if_neg (by simp [hx])]

/-! ### C83 -/

/-- C83: `repr` is the name of the class followed by `name=repr(value)` for exactly the fields that are not equal to their plain default,
in field order. -/
theorem C83_repr {E : Env W} {C : RecClass W} (hC : Creatable C) {i : Inst W} (hi : Full C i) (qual : W.Cls → String)
    (rep : W.Obj → String) (s : LState W) :
    ∃ items : List (String × W.Obj), (items.map (·.1)).Sublist (C.fields.map (·.1)) ∧
      (∀ k v, (k, v) ∈ items ↔ ∃ f, (k, f) ∈ C.fields ∧ i.dict.get? k = some v ∧ ¬ f.isPlainDefault v) ∧
      reprInst E qual rep C {} i s =
        (.ok (qual i.cid ++ "(" ++ ", ".intercalate (items.map fun kv => kv.1 ++ "=" ++ rep kv.2) ++ ")"), s) := by
  obtain ⟨d, h1, _, h3, h4⟩ := C75_to_dict (E := E) hC hi (o := {}) (black := []) rfl s
  refine ⟨d, h4 rfl, fun k v => ?_, by unfold reprInst; simp only [M.bind, h1, M.pure]⟩
  rw [h3]
  constructor
  · rintro ⟨f, hf, hv, h⟩
    refine ⟨f, hf, hv, ?_⟩
    rcases h with h | ⟨_, h | h⟩
    · cases h
    · cases h
    · exact h
  · rintro ⟨f, hf, hv, h⟩
    exact ⟨f, hf, hv, .inr ⟨by simp, .inr h⟩⟩

/-- C83, `self.__repr__(**kwargs)` with export options: the entries of `to_dict` with these options, in
its order; these are exactly the exported fields, in field order unless `sort` is given. -/
theorem C83_repr_options {E : Env W} {C : RecClass W} (hC : Creatable C) {i : Inst W} (hi : Full C i) (qual : W.Cls → String)
    (rep : W.Obj → String) {o : ExportOpts} {black : List Nat} (ho : o.blacklist = .tags black) (s : LState W) :
    ∃ items : List (String × W.Obj), toDict C (.ofInst E i) o Sel.empty s = (.ok items, s) ∧ (items.map (·.1)).Nodup ∧
      (o.sort = .no → (items.map (·.1)).Sublist (C.fields.map (·.1))) ∧
      (∀ k v, (k, v) ∈ items ↔
        ∃ f, (k, f) ∈ C.fields ∧ i.dict.get? k = some v ∧ Exported o.includeDefaults black o.whitelist f v) ∧
      reprInst E qual rep C o i s =
        (.ok (qual i.cid ++ "(" ++ ", ".intercalate (items.map fun kv => kv.1 ++ "=" ++ rep kv.2) ++ ")"), s) := by
  obtain ⟨d, h1, h2, h3, h4⟩ := C75_to_dict (E := E) hC hi ho s
  exact ⟨d, h1, h2, h4, h3, by unfold reprInst; simp only [M.bind, h1, M.pure]⟩

end Records

/-! ### examples -/
namespace Records.Toy.Pickle
open Toy Toy.Trip

/-- pickling numbers and strings -/
def codec : TObj → TObj := id

theorem good_A (x y : TObj) : GoodCodec A (mkA x y) codec :=
  ⟨fun _ v _ _ => eq_refl v, fun _ _ _ h _ => A_keeps h, nofun⟩

theorem good_B (i j : Int) (z : String) (h : Option Int) : GoodCodec B (mkB (.int i) (.int j) z h) codec := by
  refine ⟨fun _ v _ _ => eq_refl v, fun k f v hf hv => B_keeps i j z hf hv, ?_⟩
  intro _ k v hv _
  simp only [mkB, Dict.get?] at hv
  split at hv
  · cases hv; rfl
  · split at hv
    · cases hv; rfl
    · split at hv
      · cases hv; rfl
      · cases hv

/-- a filler that returns 9 whatever it is given -/
def spN : ClassSpec W :=
  { cid := .record 0, anns := [("x", .plain (.annotated (.cls .int) [vtok (ret 1 (.int 9))]))] }
def N : RecClass W := clsOf spN noClass
theorem N_creatable : Creatable N := .intro spN N ⟨by decide, by decide, nofun⟩ nofun rfl
def instN : Inst W := ⟨.record 0, [("x", .int 5), ("q", .int 6)], none⟩
/-- `C81`: the re-constructed instance has `x = 9`, the unpickled one `x = 5` -/
example : (callN env N 1 none (mapValues codec (shown N instN)) s0).1 = .ok (.new ⟨.record 0, [("x", .int 9)], none⟩) := rfl
example : (unpickleInst env N 0 codec ⟨[("x", .int 5)], instN.dict, none⟩ s0).1 = .ok (.new instN) := rfl
example := C81_exact (E := env) N_creatable (fun _ _ => rfl) (by unfold FreeNames; decide) (i := instN) (by unfold Full; decide) (by decide)
  codec 0 s0 s0 rfl
example := C81_attributes (E := env) N_creatable (by decide) (i := instN) (by unfold Full; decide) (by decide)
  codec 0 s0 s0 rfl
/-- a field named `arg`: it is passed as the positional argument -/
def spG : ClassSpec W := { cid := .record 0, anns := [("arg", .plain (.cls .int))] }
def G : RecClass W := clsOf spG noClass
theorem G_creatable : Creatable G := .intro spG G ⟨by decide, by decide, nofun⟩ nofun rfl
example := C81_attributes (E := env) G_creatable (by decide) (i := ⟨.record 0, [("arg", .int 5)], none⟩) (by unfold Full; decide) (by decide)
  codec 0 s0 s0 (j := ⟨.record 0, [("arg", .int 5)], none⟩) rfl
/-- `x` must be a string -/
def bad : Inst W := ⟨.record 1, [("x", .int 1), ("y", .int 3), ("z", .int 0)], some none⟩
example := C81_fails (E := env) B_creatable (by decide) (i := bad) (by unfold Full; decide) codec 0 s0 s0
example : (unpickleInst env B 0 codec ⟨[("x", .int 1), ("z", .int 0)], bad.dict, some none⟩ s0).1 =
    (callN env B 1 none (mapValues codec (shown B bad)) s0).1 := rfl
example : (callN env B 1 none (mapValues codec (shown B bad)) s0).1 = .error ⟨.typeError, some "z"⟩ := rfl
example := C81_succeeds (E := env) A_creatable A_post A_names (mkA_proper H (.int 1) (.int 3)).full (by decide) (good_A _ _) 0 s0 s0

/-- `C82` -/
example := C82_uncached (E := env) eqOK (contract 5) B_creatable B_post B_names (mkB_full (.int 1) (.int 3) "a" none) (by decide)
  (fun _ => rfl) (good_B 1 3 "a" none) 0 s0 s0
example := C82_cached (E := env) (H := hasher 5) eqOK B_creatable rfl B_post B_names (mkB_full (.int 1) (.int 3) "a" (some 38)) (by decide)
  rfl (good_B 1 3 "a" (some 38)) 0 s0 s0

/-- `C83` -/
def rep : TObj → String
  | .int 1 => "1"
  | .str s => "'" ++ s ++ "'"
  | _ => "?"
example : reprInst env (fun _ => "B") rep B {} (mkB (.int 1) (.int 3) "a") s0 = (.ok "B(x=1, z='a')", s0) := rfl
example : reprInst env (fun _ => "B") rep B { whitelist := ["y"] } (mkB (.int 1) (.int 3) "a") s0 =
    (.ok "B(x=1, y=?, z='a')", s0) := rfl
example := C83_repr_options (E := env) B_creatable (mkB_full (.int 1) (.int 3) "a" none) (fun _ => "B") rep
  (o := { whitelist := ["y"] }) rfl s0
example := C83_repr (E := env) B_creatable (mkB_full (.int 1) (.int 3) "a" none) (fun _ => "B") rep s0

end Records.Toy.Pickle

/-! ### refuted claims -/
namespace Records
open Toy Toy.Trip Toy.Pickle

/-- The claim that a record pickled in one process (with hashing `H`) equals, when unpickled in another (with hashing `H'`), the records
that are equal to it. -/
def C82_claim : Prop := ∀ (W : World) (E : Env W) (H H' : Hasher W) (C : RecClass W), EqOK W → HashContract H → HashContract H' →
  Creatable C → PlainPost C → FreeNames C → ∀ (i : Inst W), Proper H C i → (i.dict.map (·.1)).Nodup →
  ∀ codec, GoodCodec C i codec → ∀ (n : Nat) (s t : LState W) p s1 j t1, reduceInst E C i s = (.ok p, s1) →
    unpickleInst E C n codec p t = (.ok (.new j), t1) → ∀ b, Proper H' C b → SameFields C i b → Equal E H' C j b

/-- C82: it does not hold: the cached hash is pickled, but hashes differ between processes. -/
theorem C82_refuted : ¬ C82_claim := by
  intro h
  have := h W env (hasher 0) (hasher 5) B eqOK (contract 0) (contract 5) B_creatable B_post B_names
    (mkB (.int 1) (.int 3) "a" (some 38)) ((mkB_proper (hasher 0) 1 3 "a").cached) (by decide) codec (good_B 1 3 "a" (some 38)) 0 s0 s0
    _ _ _ _ rfl rfl (mkB (.int 1) (.int 3) "a") (mkB_proper (hasher 5) 1 3 "a") (by
      intro k hk
      rcases hk with _ | ⟨_, _ | ⟨_, _ | ⟨_, hk⟩⟩⟩
      · exact ⟨_, _, rfl, rfl, rfl⟩
      · exact ⟨_, _, rfl, rfl, rfl⟩
      · exact ⟨_, _, rfl, rfl, rfl⟩
      · cases hk) s0
  cases this

end Records

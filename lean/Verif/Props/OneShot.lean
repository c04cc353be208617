import Verif.Proofs.OneShot
import Verif.Props.Factory
set_option linter.unusedSimpArgs false
/-
C112: Selects made from one-shot iterators (generators, `zip`, `map`).
-/
namespace Records
open Spec
variable {W : World}

/-! ### C112 -/

/-- C112: with re-iterable arguments (tuples, lists, mappings, strings) nothing is consumed: the factories behave as described for them
elsewhere, also at later uses. -/
theorem C112_reiterable {a : SelectArgs W.Obj} (ha : Reiterable a) : firstUse a = argEdits a ∧ laterUse a = argEdits a ∧
    instanceUse a = argEdits a ∧ (tuples (argEdits a)).mk' = a.mk' := by
  obtain ⟨h1, h2, h3, h4, h5, h6⟩ := ha
  have p : ∀ {β : Type} {x : PairArg β}, pairReiterable x → pairOnce x = false := by
    intro β x h; rcases x with d | (l | l) <;> first | rfl | exact h.elim
  have q : ∀ {x : KeyArg}, keyReiterable x → keyOnce x = false := by
    intro x h; rcases x with d | (l | l) <;> first | rfl | exact h.elim
  have hf : firstUse a = argEdits a := by
    unfold firstUse
    simp only [p h1, p h2, q h3, q h4, p h5, p h6, dropFirst, Bool.false_eq_true, if_false]
    split <;> rfl
  have hl : laterUse a = argEdits a := by
    unfold laterUse
    simp only [p h1, p h2, q h3, q h4, p h5, p h6, dropAll, Bool.false_eq_true, if_false]
  refine ⟨hf, hl, ?_, ?_⟩
  · unfold instanceUse
    rw [hf, hl]
  · have p' : ∀ {β : Type} {x : PairArg β}, pairReiterable x → x.store = .many (pairEntries x) := by
      intro β x h; rcases x with d | (l | l) <;> first | rfl | exact h.elim
    have q' : ∀ {x : KeyArg}, keyReiterable x → x.store = .many (keyEntries x) := by
      intro x h; rcases x with d | (l | l) <;> first | rfl | exact h.elim
    unfold SelectArgs.mk' Sel.init
    rw [p' h1, p' h2, q' h3, q' h4, p' h5, p' h6]
    rfl

/-- C112: the first use of a Select by `from_mapping` applies all entries except the one that the truth test has taken from a one-shot
iterator. -/
theorem C112_from_mapping (call : Dict W.Obj → M W (Res W)) (a : SelectArgs W.Obj) (maps : List (Dict W.Obj)) (kw : Dict W.Obj)
    (s : LState W) :
    (fromMappingS call a.mk' maps kw s).1 = fromMapping call (tuples (firstUse a)).mk' maps kw s := by
  unfold fromMappingS fromMapping
  split
  · rfl
  · exact buildFrom_eq (applyS_first a _) s

/-- C112: likewise for `from_json`. -/
theorem C112_from_json (E : Env W) (call : Dict W.Obj → M W (Res W)) {a : SelectArgs W.Obj} (ha : (argEdits a).script ≠ [])
    (v : W.Obj) (kw : Dict W.Obj) (s : LState W) :
    (fromJsonS E call a.mk' v kw s).1 =
      (if clash ["self", "cls", "v"] kw then M.throw .typeError
        else M.bind (E.jsonLoads v kw) fun j => M.bind (E.dictView j) fun m => buildFrom call (tuples (firstUse a)).mk' m) s := by
  obtain ⟨h1, h2, h3⟩ := truth_first a
  have hE : (argEdits a).isEmpty = false := by
    cases h : (argEdits a).isEmpty with
    | false => rfl
    | true => exact absurd ((isEmpty_iff_script _).1 h) ha
  rw [hE] at h1
  unfold fromJsonS
  split
  · rfl
  · unfold M.bind
    rcases E.jsonLoads v kw s with ⟨r, s1⟩
    cases r with
    | error e => rfl
    | ok j =>
      simp only
      rw [h1]
      simp only [Bool.not_false, if_true]
      rcases E.dictView j s1 with ⟨r, s2⟩
      cases r with
      | error e => rfl
      | ok m =>
        simp only
        refine buildFrom_eq ?_ s2
        rw [applyS_truth h2 (by rw [h1, hE])]
        exact applyS_first a m

/-- C112: the first use by `from_instance` reads attributes for all entries except the one that the truth test has taken, but applies only
the re-iterable arguments and the keys to maybe remove and to maybe add: reading has used up the others. -/
theorem C112_from_instance (C : RecClass W) (call : Dict W.Obj → M W (Res W)) {a : SelectArgs W.Obj} (ha : (argEdits a).script ≠ [])
    (v : Carrier W) (maps : List (Dict W.Obj)) (kw : Dict W.Obj) (s : LState W) :
    (fromInstanceS C call a.mk' v maps kw s).1 = freshInstance C call (firstUse a) (instanceUse a) v maps kw s := by
  obtain ⟨h1, h2, h3⟩ := truth_first a
  have hE : (argEdits a).isEmpty = false := by
    cases h : (argEdits a).isEmpty with
    | false => rfl
    | true => exact absurd ((isEmpty_iff_script _).1 h) ha
  refine fromInstanceS_fresh (by rw [h1, hE]; rfl) ?_ ?_
  · rw [h2.extraction C (fun h => by rw [hE] at h; cases h), h3]
  · intro m
    rw [(h2.extraction_fits C).applyS m (fun h => by rw [hE] at h; cases h), extraction_first]

/-- C112: if the entries read and applied are the same, and there are any, this is `from_instance` with a Select from tuples. -/
theorem C112_fresh (C : RecClass W) (call : Dict W.Obj → M W (Res W)) {e : Edits W.Obj} (he : e.script ≠ []) (v : Carrier W)
    (maps : List (Dict W.Obj)) (kw : Dict W.Obj) :
    freshInstance C call e e v maps kw = fromInstance C call (tuples e).mk' v maps kw := by
  obtain ⟨h1, h2, h3⟩ := truth_pure _ (mkSel_pure e)
  have hE : e.isEmpty = false := by
    cases h : e.isEmpty with
    | false => rfl
    | true => exact absurd ((isEmpty_iff_script _).1 h) he
  rw [mkSel_edits, hE] at h1
  funext s
  unfold freshInstance fromInstance
  rw [tuples_mk]
  simp only [h1, Bool.not_false, Bool.not_true, Bool.false_and, Bool.false_eq_true, if_false]
  rfl

/-- C112: a Select without entries, from whatever iterables, makes no difference: `from_instance` and `from_json` do what they do without
a Select. -/
theorem C112_empty {a : SelectArgs W.Obj} (ha : (argEdits a).script = []) (call : Dict W.Obj → M W (Res W)) :
    (∀ C v maps kw s, (fromInstanceS C call a.mk' v maps kw s).1 = fromInstance C call Sel.empty v maps kw s) ∧
    ∀ (E : Env W) v kw s, (fromJsonS E call a.mk' v kw s).1 = fromJson E call Sel.empty v kw s := by
  obtain ⟨h1, h2, h3⟩ := truth_first a
  have hE := (isEmpty_iff_script _).2 ha
  have hd := isEmpty_dropAll hE
  have he : firstUse a = {} := by
    rw [hd.2.2.1]
    simp only [Edits.isEmpty, Bool.and_eq_true, List.isEmpty_iff] at hE
    obtain ⟨⟨⟨⟨⟨h1, h2⟩, h3⟩, h4⟩, h5⟩, h6⟩ := hE
    exact edits_ext h1 h2 h3 h4 h5 h6
  have hs : Sel.empty (V := W.Obj) = (tuples {}).mk' := rfl
  rw [hE] at h1
  refine ⟨fun C v maps kw s => ?_, fun E v kw s => ?_⟩
  · have ht : (Sel.empty (V := W.Obj)).truth.1 = false := rfl
    cases hc : (!a.mk'.truth.1 && C.frozen && maps.isEmpty && kw.isEmpty && v.isInst C.cid) with
    | false =>
      rw [fromInstanceS_past (e := {}) (e' := {}) hc]
      · unfold freshInstance fromInstance
        rw [h1] at hc
        have hc : (!false && C.frozen && maps.isEmpty && kw.isEmpty && v.isInst C.cid) = false := hc
        rw [ht, hc]
        rfl
      · rw [h2.extraction C (fun _ => by rw [h3, he]; rfl), h3, he]
      · intro m
        have hx := Spent.extraction_spent { h2 with now := by rw [h3, hd.2.2.1, hd.2.2.2] } C
        rw [hx.applyS, applyS_tuples, hd.2.2.2, ← hd.2.2.1, he]
    | true =>
      have hk : kw = [] := by
        simp only [Bool.and_eq_true, List.isEmpty_iff] at hc
        exact hc.1.2
      subst hk
      unfold fromInstanceS fromInstance
      simp only
      rw [hc, ht]
      rw [h1] at hc
      have hc : (!false && C.frozen && maps.isEmpty && List.isEmpty ([] : Dict W.Obj) && v.isInst C.cid) = true := hc
      rw [hc]
      rfl
  · unfold fromJsonS fromJson
    split
    · rfl
    · unfold M.bind
      rcases E.jsonLoads v kw s with ⟨r, s1⟩
      cases r with
      | error e => rfl
      | ok j =>
        simp only
        rw [h1]
        rw [show (Sel.empty (V := W.Obj)).truth.1 = false from rfl]
        simp only [Bool.not_true, Bool.false_eq_true, if_false]
        rcases E.starView j s1 with ⟨r, s2⟩
        cases r with
        | error e => rfl
        | ok m =>
          simp only
          rw [hs]
          refine buildFrom_eq ?_ s2
          rw [applyS_truth h2 (by rw [h1, hE]), applyS_first, he]

/-- C112: after one use that succeeded, and then any further uses by any factories on any classes, successful or not, only the re-iterable
arguments still have an effect, for every factory. -/
theorem C112_later {a : SelectArgs W.Obj} (u : SUse W) (us : List (SUse W)) (s : LState W) (hu : Succeeds a.mk' s u) :
    (∀ call maps kw s', (fromMappingS call (usesS (u :: us) a.mk' s).1 maps kw s').1
      = fromMapping call (tuples (laterUse a)).mk' maps kw s') ∧
    ((argEdits a).script ≠ [] → ∀ C call v maps kw s', (fromInstanceS C call (usesS (u :: us) a.mk' s).1 v maps kw s').1
      = freshInstance C call (laterUse a) (laterUse a) v maps kw s') ∧
    ((argEdits a).script ≠ [] → ∀ (E : Env W) call v kw s', (fromJsonS E call (usesS (u :: us) a.mk' s).1 v kw s').1 =
      (if clash ["self", "cls", "v"] kw then M.throw .typeError
        else M.bind (E.jsonLoads v kw) fun j => M.bind (E.dictView j) fun m => buildFrom call (tuples (laterUse a)).mk' m) s') := by
  have h : Spent a (usesS (u :: us) a.mk' s).1 := usesS_spent (u.first s hu) us _
  generalize (usesS (u :: us) a.mk' s).1 = sel at h
  have ha : ∀ m, (sel.applyS m).1 = ofLoop (scriptLoop (laterUse a).script m) := fun m => by
    rw [h.applyS, applyS_tuples]
  have ht := h.toTested.truth
  refine ⟨?_, ?_, ?_⟩
  · intro call maps kw s'
    unfold fromMappingS fromMapping
    split
    · rfl
    · exact buildFrom_eq (ha _) s'
  · intro hs C call v maps kw s'
    have hE : (argEdits a).isEmpty = false := by
      cases h : (argEdits a).isEmpty with
      | false => rfl
      | true => exact absurd ((isEmpty_iff_script _).1 h) hs
    refine fromInstanceS_fresh (by rw [ht, hE]; rfl) ?_ ?_
    · rw [ht, h.toTested.extraction C (fun h => by rw [hE] at h; cases h), h.now]
    · intro m
      rw [ht, (h.extraction_spent C).applyS, applyS_tuples]
  · intro hs E call v kw s'
    have hE : (argEdits a).isEmpty = false := by
      cases h : (argEdits a).isEmpty with
      | false => rfl
      | true => exact absurd ((isEmpty_iff_script _).1 h) hs
    unfold fromJsonS
    split
    · rfl
    · unfold M.bind
      rcases E.jsonLoads v kw s' with ⟨r, s1⟩
      cases r with
      | error e => rfl
      | ok j =>
        simp only
        rw [ht, hE]
        simp only [Bool.not_false, if_true]
        rcases E.dictView j s1 with ⟨r, s2⟩
        cases r with
        | error e => rfl
        | ok m => exact buildFrom_eq (ha m) s2

/-- C112: an exporter applies its Select as `from_mapping` does. -/
theorem C112_export {R : Type} (V : OptView W) (C : RecClass W) (obj : Carrier W) (eargs : List W.Obj) (ekw : Dict W.Obj)
    (a : SelectArgs W.Obj) (k : Dict W.Obj → M W R) (s : LState W) :
    (exportRun V C obj eargs ekw a.mk' k s).1 = (exportRun V C obj eargs ekw (tuples (firstUse a)).mk' k s).1 := by
  unfold exportRun
  cases bindOpts V eargs ekw with
  | error e => rfl
  | ok x =>
    simp only
    rcases toDict C obj x.1 x.2 s with ⟨r, s'⟩
    cases r with
    | error e => rfl
    | ok d =>
      have h := (call_applyS a.mk' d).trans ((applyS_first a d).trans ((applyS_tuples (firstUse a) d).symm.trans
        (call_applyS (tuples (firstUse a)).mk' d).symm))
      simp only
      cases h1 : (a.mk'.call [d] (.dict 0)).ret with
      | error e =>
        cases h2 : ((tuples (firstUse a)).mk'.call [d] (.dict 0)).ret with
        | error e' => rw [h1, h2] at h; cases h; rfl
        | ok m => rw [h1, h2] at h; cases h
      | ok m =>
        cases h2 : ((tuples (firstUse a)).mk'.call [d] (.dict 0)).ret with
        | error e' => rw [h1, h2] at h; cases h
        | ok m' =>
          rw [h1, h2] at h
          simp only at h ⊢
          rw [Except.ok.inj h]

/-- C112: merging two Selects takes up the entries of both, except the ones that their truth tests have taken from one-shot iterators, and
what it makes can be used any number of times; the Selects merged keep only their re-iterable arguments. If either of them has no entries,
the result is the other one. -/
theorem C112_merge (a b : SelectArgs W.Obj) :
    ((argEdits a).script ≠ [] → (argEdits b).script ≠ [] →
      (a.mk'.merge1 b.mk').1 = (tuples ((firstUse a).append (firstUse b))).mk' ∧
      ∀ m, ((a.mk'.merge1 b.mk').2.1.applyS m).1 = ((tuples (laterUse a)).mk'.applyS m).1 ∧
        ((a.mk'.merge1 b.mk').2.2.applyS m).1 = ((tuples (laterUse b)).mk'.applyS m).1) ∧
    ((argEdits a).script = [] → (a.mk'.merge1 b.mk').1 = b.mk' ∧ (a.mk'.merge1 b.mk').2.2 = b.mk') ∧
    ((argEdits a).script ≠ [] → (argEdits b).script = [] → (a.mk'.merge1 b.mk').1 = (a.mk'.merge1 b.mk').2.1 ∧
      ∀ m, ((a.mk'.merge1 b.mk').1.applyS m).1 = ((tuples (firstUse a)).mk'.applyS m).1) := by
  obtain ⟨a1, a2, a3⟩ := truth_first a
  obtain ⟨b1, b2, b3⟩ := truth_first b
  have hE : ∀ c : SelectArgs W.Obj, (argEdits c).script ≠ [] → (argEdits c).isEmpty = false := by
    intro c hc
    cases h : (argEdits c).isEmpty with
    | false => rfl
    | true => exact absurd ((isEmpty_iff_script _).1 h) hc
  refine ⟨?_, ?_, ?_⟩
  · intro ha hb
    have hm : a.mk'.merge1 b.mk' = ((tuples ((a.mk'.truth.2.edits).append (b.mk'.truth.2.edits))).mk',
        a.mk'.truth.2.drained, b.mk'.truth.2.drained) := by
      unfold Sel.merge1
      simp only
      rw [a1, b1, hE a ha, hE b hb]
      rfl
    rw [hm, a3, b3]
    refine ⟨rfl, fun m => ⟨?_, ?_⟩⟩
    · exact a2.drained.applyS m
    · exact b2.drained.applyS m
  · intro ha
    have hm : a.mk'.merge1 b.mk' = (b.mk', a.mk'.truth.2, b.mk') := by
      unfold Sel.merge1
      simp only
      rw [a1, (isEmpty_iff_script _).2 ha]
      rfl
    rw [hm]
    exact ⟨rfl, rfl⟩
  · intro ha hb
    have hm : a.mk'.merge1 b.mk' = (a.mk'.truth.2, a.mk'.truth.2, b.mk'.truth.2) := by
      unfold Sel.merge1
      simp only
      rw [a1, hE a ha, b1, (isEmpty_iff_script _).2 hb]
      rfl
    rw [hm]
    refine ⟨rfl, fun m => ?_⟩
    show (a.mk'.truth.2.applyS m).1 = _
    rw [applyS_truth a2 a1, applyS_first, applyS_tuples]

end Records

/-! ### concrete cases -/
namespace Records.Toy.Once
open Spec

/-- `select(keys_to_remove='q', keys_to_rename=zip(['z'], ['x']))` -/
def selZ : SelectArgs W.Obj := { remove := .str "q", rename := .iterable (.once [("z", "x")]) }
/-- `select(keys_to_rename=zip(['z'], ['x']))` -/
def selO : SelectArgs W.Obj := { rename := .iterable (.once [("z", "x")]) }
/-- `select(keys_to_maybe_add=iter([('u', 0), ('y', 8)]), keys_to_rename=zip(['z'], ['x']))` -/
def selY : SelectArgs W.Obj := { maybeAdd := .iterable (.once [("u", .int 0), ("y", .int 8)]), rename := .iterable (.once [("z", "x")]) }

/-- the truth test stops at the key to remove: nothing is lost at first -/
example : firstUse selZ = argEdits selZ ∧ laterUse selZ = { remove := ["q"] } ∧ instanceUse selZ = { remove := ["q"] } := ⟨rfl, rfl, rfl⟩
/-- the truth test takes the only entry -/
example : firstUse selO = {} ∧ laterUse selO = {} := ⟨rfl, rfl⟩
/-- the truth test takes the first key to maybe add -/
example : firstUse selY = { maybeAdd := [("y", .int 8)], rename := [("z", "x")] } ∧ laterUse selY = {} ∧
    instanceUse selY = { maybeAdd := [("y", .int 8)] } := ⟨rfl, rfl, rfl⟩

theorem selZ_some : (argEdits selZ).script ≠ [] := by simp [Edits.script, argEdits, selZ, keyEntries]
theorem selO_some : (argEdits selO).script ≠ [] := by simp [Edits.script, argEdits, selO, pairEntries]

/-- `from_mapping` with `selZ`: renamed at the first use, not at the second -/
def useZ : SUse W := .mapping callA [[("z", .int 1), ("q", .int 7)]] []

example : (fromMappingS (W := W) callA selZ.mk' [[("z", .int 1), ("q", .int 7)]] [] s0).1 =
    (.ok (.new ⟨.record 0, [("x", .int 1), ("y", .int 3)], none⟩), s0) := rfl
example : (fromMappingS (W := W) callA (usesS [useZ] selZ.mk' s0).1 [[("z", .int 1), ("q", .int 7)]] [] s0).1 =
    (.error .typeError, s0) := rfl
theorem useZ_ok : Succeeds selZ.mk' s0 useZ := ⟨_, rfl⟩
example := C112_later (W := W) (a := selZ) useZ [useZ, useZ] s0 useZ_ok
example := (C112_later (W := W) (a := selZ) useZ [useZ, useZ] s0 useZ_ok).2.1 selZ_some A callA obj3 [] [] s0
example := C112_from_mapping (W := W) callA selZ [[("z", .int 1), ("q", .int 7)]] [] s0
example := C112_from_json (W := W) env callA selO_some (.str "{}") [] s0
example := C112_from_instance (W := W) A callA selZ_some obj3 [] [] s0
example := C112_fresh (W := W) A callA (e := argEdits selA) (by simp [Edits.script, argEdits, selA, keyEntries]) obj3 [] []
example := C112_reiterable (W := W) selA_ok
/-- `select(keys_to_rename=iter([]))`: `from_instance` returns a frozen record itself -/
example : (argEdits ({ rename := .iterable (.once []) } : SelectArgs W.Obj)).script = [] := rfl
example := C112_empty (W := W) (a := { rename := .iterable (.once []) }) rfl callA
example := C112_merge (W := W) selZ selO
example := (C112_merge (W := W) selZ selO).1 selZ_some selO_some
/-- the only entry of `selO` is lost by merging -/
example : (firstUse selZ).append (firstUse selO) = argEdits selZ := rfl

/-- C112 (refuted claim): it does not matter for `from_instance` whether the entries of its Select come from tuples or from other iterables.
With `keys_to_remove='q', keys_to_rename=zip(['z'], ['x'])` the attribute `z` is read but not renamed. -/
theorem C112_refuted_from_instance : ¬ ∀ (a : SelectArgs W.Obj) (C : RecClass W) (call : Dict W.Obj → M W (Res W)) (v : Carrier W)
    (s : LState W), (fromInstanceS C call a.mk' v [] [] s).1 = fromInstance C call (tuples (argEdits a)).mk' v [] [] s := by
  intro h
  have h1 : (fromInstanceS (W := W) A callA selZ.mk' obj3 [] [] s0).1 = (.error .typeError, s0) := rfl
  have h2 : fromInstance (W := W) A callA (tuples (argEdits selZ)).mk' obj3 [] [] s0 =
    (.ok (some (.new ⟨.record 0, [("x", .int 5), ("y", .int 3)], none⟩)), s0) := rfl
  have := (h1.symm.trans (h selZ A callA obj3 s0)).trans h2
  cases this

/-- C112 (refuted claim): likewise for `from_mapping`, even at the first use. With `keys_to_rename=zip(['z'], ['x'])` nothing is renamed. -/
theorem C112_refuted_from_mapping : ¬ ∀ (a : SelectArgs W.Obj) (call : Dict W.Obj → M W (Res W)) (m : Dict W.Obj)
    (s : LState W), (fromMappingS call a.mk' [m] [] s).1 = fromMapping call (tuples (argEdits a)).mk' [m] [] s := by
  intro h
  have h1 : (fromMappingS (W := W) callA selO.mk' [[("z", .int 1)]] [] s0).1 = (.error .typeError, s0) := rfl
  have h2 : fromMapping (W := W) callA (tuples (argEdits selO)).mk' [[("z", .int 1)]] [] s0 =
    (.ok (.new ⟨.record 0, [("x", .int 1), ("y", .int 3)], none⟩), s0) := rfl
  have := (h1.symm.trans (h selO callA [("z", .int 1)] s0)).trans h2
  cases this

end Records.Toy.Once

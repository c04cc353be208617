import Verif.Proofs.Invariant
import Verif.Props.Stable
import Verif.Props.Class
import Verif.Props.Equality
import Verif.Props.Roundtrip
import Verif.Spec.ToyEnv
import Verif.Spec.ToyHash
/-
C91: type soundness of whole records, through every way to make one.
-/
namespace Records
variable {W : World}

/-- C91.  If the filler of a field returns only values with a property, and user code respects it, then every instance the library
returns has it, however it was made. -/
theorem C91_invariant {E : Env W} {C : RecClass W} (hC : Creatable C) {k : String} {f : Field W} (hf : (k, f) ∈ C.fields)
    {P : W.Obj → Prop} (hfill : ∀ v s w s', f.filler.call v s = (.ok w, s') → P w) (hR : Respects C k P) {i : Inst W}
    (hi : Obtained E C i) : ∃ w, i.dict.get? k = some w ∧ P w :=
  obtained_holds hC.wf (Dict.mem_get? _ hC.wf.nodup _ _ hf) hfill hR hi

theorem Declared.field {C : RecClass W} {k : String} {d : Style} {t : Hint W} {toks : List (Tok W)} (h : Declared C k d t toks) :
    ∃ f, C.fields.get? k = some f ∧ makeFiller d (toks.map fun t => (none, t)) t = .ok f.filler := by
  obtain ⟨sp, R, hh, hok, hp, hmk, hd, hm, ht, hs, htk⟩ := h
  obtain ⟨f, h1, _, h2, _⟩ := C45_own_field hok hp hmk hm ht
  exact ⟨f, C45_inherited_field hd h1, by rw [← hs, ← htk]; exact h2⟩

/-- C91.  Every field of every record conforms to its declared type at every depth: whichever route the instance came by, the value
of a field declared (in the class or in a class it derives from) with a tidy hint conforms to the hint. -/
theorem C91_types {E : Env W} (hW : Sane W) {C : RecClass W} (hC : Creatable C) {k : String} {d : Style} {t : Hint W}
    {toks : List (Tok W)} (hk : Declared C k d t toks) (ht : Everywhere TidyPart t none toks)
    (hR : Respects C k (Conf d t none toks)) {i : Inst W} (hi : Obtained E C i) :
    ∃ w, i.dict.get? k = some w ∧ Conf d t none toks w := by
  obtain ⟨f, hf, hm⟩ := hk.field
  exact obtained_holds hC.wf hf (fun v s w s' h => C38_conforms hW hm ht h) hR hi

/-- C91.  The type of a field survives everything done to the record except assigning or deleting that very attribute. -/
theorem C91_history (E : Env W) (H : Hasher W) (C : RecClass W) {k : String} {P : W.Obj → Prop} (ops : List (Op W))
    (hops : ∀ op ∈ ops, op.spares k) (i : Inst W) (hn : (i.dict.map (·.1)).Nodup) (hi : i.Holds k P) (s : LState W) :
    (history E H C ops i s).1.Holds k P := by
  induction ops generalizing i s with
  | nil => exact hi
  | cons op ops ih =>
    have hop := hops op (List.mem_cons_self ..)
    have key : (op.run E H C i s).2.1.Holds k P ∧ ((op.run E H C i s).2.1.dict.map (·.1)).Nodup := by
      have same : ∀ j : Inst W, j.dict = i.dict → j.Holds k P ∧ (j.dict.map (·.1)).Nodup := by
        intro j h; unfold Inst.Holds; rw [h]; exact ⟨hi, hn⟩
      cases op with
      | set k' v =>
        show (setInst C i k' v).2.Holds k P ∧ ((setInst C i k' v).2.dict.map (·.1)).Nodup
        unfold setInst
        split
        · exact ⟨hi, hn⟩
        · refine ⟨?_, Dict.WF.set hn k' v⟩
          obtain ⟨w, hw, hp⟩ := hi
          exact ⟨w, by show Dict.get? (i.dict.set k' v) k = _; rw [Dict.get?_set, if_neg (Ne.symm hop)]; exact hw, hp⟩
      | del k' =>
        show (delInst i k').2.Holds k P ∧ ((delInst i k').2.dict.map (·.1)).Nodup
        unfold delInst
        split
        · refine ⟨?_, Dict.WF.erase hn k'⟩
          obtain ⟨w, hw, hp⟩ := hi
          exact ⟨w, by show Dict.get? (i.dict.erase k') k = _; rw [Dict.get?_erase _ hn, if_neg (Ne.symm hop)]; exact hw, hp⟩
        · exact ⟨hi, hn⟩
      | hash => exact same _ (alike_hash E H C i s).dict
      | eq b => exact same _ (alike_eq_left E H C i b s).dict
      | eqBy b => exact same _ (alike_eq_right E H C b i s).dict
      | «export» o => exact ⟨hi, hn⟩
      | setHash h => exact ⟨hi, hn⟩
    exact ih (fun op h => hops op (List.mem_cons_of_mem _ h)) _ key.2 key.1 _

/-- C91.  Unpickling restores a record whose field conforms, if pickling the value preserves the property. -/
theorem C91_unpickled {E : Env W} {C : RecClass W} {k : String} {P : W.Obj → Prop} {codec : W.Obj → W.Obj} (hcodec : ∀ v, P v → P (codec v))
    {i : Inst W} (hn : (i.dict.map (·.1)).Nodup) (hi : i.Holds k P) {n : Nat} {p : Pickled W} {s s1 t t1 : LState W} {j : Inst W}
    (hp : reduceInst E C i s = (.ok p, s1)) (hj : unpickleInst E C n codec p t = (.ok (.new j), t1)) : j.Holds k P := by
  unfold reduceInst at hp
  rcases h1 : toDict C (.ofInst E i) {} Sel.empty s with ⟨e | d, s2⟩ <;> simp only [M.bind, h1] at hp
  · cases hp
  · cases hp
    unfold unpickleInst at hj
    rcases h2 : newKw (construct E C (parseN E C n)) (mapValues codec d) t with ⟨e | r, t2⟩ <;> simp only [M.bind, h2] at hj
    · cases hj
    · cases r with
      | old v => cases hj
      | new j0 =>
        cases hj
        obtain ⟨w, hw, hP⟩ := hi
        refine ⟨codec w, ?_, hcodec w hP⟩
        have hk : Dict.keys (mapValues codec i.dict) = Dict.keys i.dict := by
          simp [mapValues, Dict.keys, List.map_map, Function.comp_def]
        have hwf : Dict.WF (mapValues codec i.dict) := by unfold Dict.WF; rw [hk]; exact hn
        show Dict.get? (Dict.update j0.dict (mapValues codec i.dict)) k = _
        rw [Dict.get?_update _ _ hwf]
        have : Dict.get? (mapValues codec i.dict) k = some (codec w) :=
          Dict.mem_get? _ hwf _ _ (List.mem_map.2 ⟨(k, w), Dict.get?_eq_some_mem _ _ _ hw, rfl⟩)
        rw [this]
        rfl

/-- the field is declared with a tidy, settled hint, by a class statement that fixes a style, and user code respects the hint -/
def Solid (C : RecClass W) (k : String) : Prop := ∃ d t toks, Declared C k d t toks ∧ d ≠ .default ∧
  Everywhere TidyPart t none toks ∧ Settled d t none toks ∧ Respects C k (Conf d t none toks)

theorem solid_keeps {E : Env W} (hW : Sane W) {C : RecClass W} (hC : Creatable C) (hs : ∀ k ∈ C.fields.map (·.1), Solid C k)
    {i : Inst W} (hi : Obtained E C i) : ∀ k f v, (k, f) ∈ C.fields → i.dict.get? k = some v → f.Keeps v := by
  intro k f v hkf hv
  obtain ⟨d, t, toks, h1, h2, h3, h4, h5⟩ := hs k (List.mem_map.2 ⟨_, hkf, rfl⟩)
  obtain ⟨f', hf', hm⟩ := h1.field
  rw [Dict.mem_get? _ hC.wf.nodup _ _ hkf] at hf'
  cases hf'
  obtain ⟨w, hw, hc⟩ := C91_types hW hC h1 h3 h5 hi
  rw [hv] at hw; cases hw
  exact fun s => C90_conforming_kept hW h2 hm (Everywhere.mono (fun _ _ h => h.1) _ _ _ h3) h4 hc s

/-- C91.  Exporting and importing again gives an equal record, for every record of a class all of whose fields are solid: no condition
on the stored values is left. -/
theorem C91_round_trip {E : Env W} {H : Hasher W} (hW : Sane W) (hE : EqOK W) (hH : HashContract H) {C : RecClass W} (hC : Creatable C)
    (hpost : PlainPost C) (hfree : FreeNames C) (hs : ∀ k ∈ C.fields.map (·.1), Solid C k) {i : Inst W} (hi : Obtained E C i)
    (hp : Proper H C i) {o : ExportOpts} {black : List Nat} (ho : o.blacklist = .tags black)
    (hdrop : DropsOnlyDefaults C i black o.whitelist) (n : Nat) (s t : LState W) :
    ∃ d j t', toDict C (.ofInst E i) o Sel.empty s = (.ok d, s) ∧
      fromMapping (fun m => callN E C (n + 1) none m) Sel.empty [d] [] t = (.ok (.new j), t') ∧ Copied E H C i d j :=
  C77_round_trip hE hH hC hpost hfree hp (solid_keeps hW hC hs hi) ho hdrop n s t

/-- C91.  Likewise `copy` of such a record of a non-frozen class. -/
theorem C91_copy {E : Env W} {H : Hasher W} (hW : Sane W) (hE : EqOK W) (hH : HashContract H) {C : RecClass W} (hC : Creatable C)
    (hf : C.frozen = false) (hpost : PlainPost C) (hfree : FreeNames C) (hs : ∀ k ∈ C.fields.map (·.1), Solid C k) {i : Inst W}
    (hi : Obtained E C i) (hc : i.cid = C.cid) (n : Nat) (s : LState W) :
    ∃ j s', copyInst E C (n + 1) i s = (.ok (some (.new j)), s') ∧ Copied E H C i (shown C i) j := by
  refine C79_not_frozen hE hH hC hf hpost hfree ?_ hc (solid_keeps hW hC hs hi) n s
  intro k hk
  obtain ⟨d, t, toks, h1, h2, h3, h4, h5⟩ := hs k hk
  obtain ⟨w, hw, -⟩ := C91_types hW hC h1 h3 h5 hi
  exact List.mem_map.2 ⟨_, Dict.get?_eq_some_mem _ _ _ hw, rfl⟩

end Records

namespace Records.Toy.Rt
open Toy

/-- `class D(RecordBase, default_type_check=check): m: Dict[str, Tuple[Optional[Annotated[int, Loose]], ...]]; y: int = 3` -/
def spD : ClassSpec Toy.W :=
  { cid := .record 0, style := .check, anns := [("m", .plain deepHint), ("y", .plain (.cls .int))], attrs := [("y", .value (.int 3))] }
def D : RecClass Toy.W := clsOf spD noClass
theorem spD_ok : spD.OK := ⟨by decide, by decide, nofun⟩
theorem D_mk : mkClass spD = .ok D := rfl
theorem D_creatable : Creatable D := .intro spD D spD_ok nofun D_mk

/-- `class D2(D): z: int` -/
def spD2 : ClassSpec Toy.W := { cid := .record 1, anns := [("z", .plain (.cls .int))], parents := [D] }
def D2 : RecClass Toy.W := clsOf spD2 noClass
theorem spD2_ok : spD2.OK := by
  refine ⟨by decide, by decide, ?_⟩
  intro p hp kf hkf
  rcases hp with _ | ⟨_, hp⟩
  · rcases hkf with _ | ⟨_, _ | ⟨_, hkf⟩⟩
    · nofun
    · nofun
    · cases hkf
  · cases hp
theorem spD2_parents : ∀ p ∈ spD2.parents, Creatable p := by
  intro p hp
  rcases hp with _ | ⟨_, hp⟩
  · exact D_creatable
  · cases hp
theorem D2_mk : mkClass spD2 = .ok D2 := rfl
theorem D2_creatable : Creatable D2 := .intro spD2 D2 spD2_ok spD2_parents D2_mk

theorem D_m : Declared D "m" .check deepHint [] := .intro spD D _ spD_ok nofun D_mk .refl (.head _) rfl rfl rfl
theorem D_y : Declared D "y" .check (.cls .int) [] := .intro spD D _ spD_ok nofun D_mk .refl (.tail _ (.head _)) rfl rfl rfl
/-- the inherited field keeps its declaration -/
theorem D2_m : Declared D2 "m" .check deepHint [] :=
  .intro spD D _ spD_ok nofun D_mk (.step spD2 D2 D spD2_ok spD2_parents D2_mk (.head _) .refl) (.head _) rfl rfl rfl

theorem noUser {C : RecClass Toy.W} (h : C.parsers = [.fromInstance, .fromJson, .fromMapping] ∨ C.parsers = []) (g) :
    Parser.user g ∉ C.parsers := by
  intro hg
  rcases h with h | h <;> rw [h] at hg
  · rcases hg with _ | ⟨_, _ | ⟨_, _ | ⟨_, hg⟩⟩⟩
    cases hg
  · cases hg

theorem respects {C : RecClass Toy.W} (hp : PlainPost C) (hu : ∀ g, Parser.user g ∉ C.parsers) {k : String} {P : TObj → Prop}
    (hd : ∀ f d, C.fields.get? k = some f → f.default = some d → ∃ v, d = .value v ∧ P v) : Respects C k P where
  default f d hf hfd s w s' hm := by
    obtain ⟨v, rfl, hv⟩ := hd f d hf hfd
    cases hm; exact hv
  post i s i' r s' h hi := by
    rw [hp] at h; cases h
    exact ⟨hi, nofun⟩
  parsers g hg := absurd hg (hu g)

theorem D_post : PlainPost D := fun _ _ => rfl
theorem D2_post : PlainPost D2 := fun _ _ => rfl
theorem D_m_respects : Respects D "m" (Conf .check deepHint none []) :=
  respects D_post (noUser (.inl rfl)) (by intro f d hf hfd; cases hf; cases hfd)
theorem D2_m_respects : Respects D2 "m" (Conf .check deepHint none []) :=
  respects D2_post (noUser (.inl rfl)) (by intro f d hf hfd; cases hf; cases hfd)
theorem D_y_respects : Respects D "y" (Conf .check (.cls .int) none []) :=
  respects D_post (noUser (.inl rfl)) (by
    intro f d hf hfd; cases hf; cases hfd
    refine ⟨_, rfl, ?_⟩
    simp only [Conf]
    right
    show Fits (W := Toy.W) .check .int (.int 3)
    exact .inl rfl)

/-- the argument and the stored value -/
def raw : TObj := Toy.dict [(.str "a", Toy.tuple [.int 1, .str "5"])]
def filled : TObj := Toy.dict [(.str "a", Toy.tuple [.int 1, .int 5])]
def iD : Inst Toy.W := ⟨.record 0, [("m", filled), ("y", .int 3)], Option.none⟩
def iD2 : Inst Toy.W := ⟨.record 1, [("m", filled), ("z", TObj.str "q"), ("y", TObj.int 3)], Option.none⟩

/-- `D.parse({"m": raw})`, and `D2(m=raw, z="q")` -/
theorem iD_obtained : Obtained env D iD := .parse (n := 1) (v := dict1 "m" raw) (s := s0) (s' := s0) rfl
theorem iD2_obtained : Obtained env D2 iD2 :=
  .call (n := 1) (arg := Option.none) (kw := [("m", raw), ("z", TObj.str "q")]) (s := s0) (s' := s0) rfl

example : ∃ w, iD.dict.get? "m" = some w ∧ Conf .check deepHint none [] w :=
  C91_types toy_sane D_creatable D_m deepHint_tidy D_m_respects iD_obtained
example : ∃ w, iD2.dict.get? "m" = some w ∧ Conf .check deepHint none [] w :=
  C91_types toy_sane D2_creatable D2_m deepHint_tidy D2_m_respects iD2_obtained

theorem D_solid : ∀ k ∈ D.fields.map (·.1), Solid D k := by
  intro k hk
  rcases hk with _ | ⟨_, _ | ⟨_, hk⟩⟩
  · exact ⟨_, _, _, D_m, by decide, deepHint_tidy, St.deepHint_settled, D_m_respects⟩
  · refine ⟨_, _, _, D_y, by decide, ?_, ?_, D_y_respects⟩
    · simp only [Everywhere, TidyPart]; exact ⟨rfl, fun _ => rfl⟩
    · simp only [Settled]
  · cases hk
example := C91_copy (E := env) (H := hasher 0) toy_sane eqOK (contract 0) D_creatable rfl D_post (by unfold FreeNames; decide) D_solid iD_obtained rfl 0 s0
example : copyInst env D 1 iD s0 = (.ok (some (.new iD)), s0) := rfl

/-- assigning `y` and deleting `z` leaves `m` as it is -/
example : (history env (hasher 0) D2 [.set "y" (.str "b"), .del "z", .hash] iD2 s0).1.Holds "m" (Conf .check deepHint none []) :=
  C91_history env (hasher 0) D2 _ (by
    intro op hop
    rcases hop with _ | ⟨_, _ | ⟨_, _ | ⟨_, hop⟩⟩⟩
    · show "y" ≠ "m"; decide
    · show "z" ≠ "m"; decide
    · trivial
    · cases hop) iD2 (by decide) (C91_types toy_sane D2_creatable D2_m deepHint_tidy D2_m_respects iD2_obtained) s0

/-- `class Bad(RecordBase, default_type_check=check): y: int = "a"` -/
def spBad : ClassSpec Toy.W :=
  { cid := .record 0, style := .check, anns := [("y", .plain (.cls .int))], attrs := [("y", .value (.str "a"))] }
def Bad : RecClass Toy.W := clsOf spBad noClass
theorem spBad_ok : spBad.OK := ⟨by decide, by decide, nofun⟩
theorem Bad_creatable : Creatable Bad := .intro spBad Bad spBad_ok nofun rfl

end Records.Toy.Rt

namespace Records
open Toy Toy.Rt

/-- the claim without the condition on user code -/
def C91_claim : Prop := ∀ (W : World) (E : Env W) (_ : Sane W) (C : RecClass W) (_ : Creatable C) (k : String) (d : Style) (t : Hint W)
  (toks : List (Tok W)), Declared C k d t toks → Everywhere TidyPart t none toks → PlainPost C → (∀ g, Parser.user g ∉ C.parsers) →
  ∀ i, Obtained E C i → ∃ w, i.dict.get? k = some w ∧ Conf d t none toks w

/-- C91.  Without the condition on defaults, `y: int = "a"` is a counterexample although the field is type checked. -/
theorem C91_refuted_default : ¬ C91_claim := by
  intro h
  obtain ⟨w, hw, hc⟩ := h Toy.W env toy_sane Bad Bad_creatable "y" .check (.cls .int) []
    (.intro spBad Bad _ spBad_ok nofun rfl .refl (.head _) rfl rfl rfl) (by simp only [Everywhere, TidyPart]; exact ⟨rfl, fun _ => rfl⟩)
    (fun _ _ => rfl) (noUser (.inl rfl)) ⟨.record 0, [("y", .str "a")], Option.none⟩
    (.call (n := 1) (arg := Option.none) (kw := []) (s := s0) (s' := s0) rfl)
  cases hw
  simp only [Conf] at hc
  rcases hc with hc | hc
  · exact absurd hc (by decide)
  · have hc : Fits (W := Toy.W) .check .int (.str "a") := hc
    rcases hc with hc | ⟨-, hc⟩
    · have : TCls.str ≠ TCls.int := by decide
      exact this hc
    · exact Bool.noConfusion (hc : false = true)

end Records

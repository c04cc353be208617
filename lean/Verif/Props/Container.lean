import Verif.Proofs.Container
/-
C34-C37, C40, C41, and C25 for containers.  A field declared `Annotated[List[h], *args]` etc. with tokens `pre` applied
in `pre_bind` (to the field or its parts), in a class with default style `d`.

`a` is always the filler of the container class alone (as if the field were `Annotated[list, *args]`): its call does the
type check/coercion and then the validators from `pre_bind` and `Annotated`; `x` is its result.
-/
set_option linter.unusedSimpArgs false
namespace Records
variable {W : World}

/-- A hint without `Annotated` behaves like one with no tokens (`pre` arbitrary). -/
theorem plain_hint (d : Style) (pre : List (Option Int × Tok W)) (h : Hint W) (hna : ∀ h' ts, h ≠ .annotated h' ts) :
    makeFiller d pre h = makeFiller d pre (.annotated h []) := by
  have : getF h none = getF h (some []) := by
    cases h with
    | annotated h' ts => exact absurd rfl (hna h' ts)
    | _ => simp [getF]
  simp [makeFiller, getFiller, getF, this]

theorem style_of_make {d : Style} {k : Kind W} {pre args : List (Tok W)} {a : Ann W} (h : Ann.make d k pre args = .ok a) :
    a.style = styleOf d (pre ++ args) := (Ann.make_ok h).2.1

/-- the structure of an element-wise field -/
theorem elementWise_make {d : Style} {pre : List (Option Int × Tok W)} {h he : Hint W} {c : W.Cls} {dq tu : Bool}
    {args : List (Tok W)} {f : F W} (hw : ElementWise h c he dq tu) (hf : makeFiller d pre (.annotated h args) = .ok f) :
    ∃ a e, Ann.make d (classKind c) (ownTokens pre) args = .ok a ∧ memberFiller d (partTokens tu 1 0 pre) he = .ok e ∧
      (e.isHollow = true → ∀ v, f.call v = (F.ann a).call v) ∧
      (e.isHollow = false → a.style ≠ .hollow ∧ ∀ v, f.call v = M.bind ((F.ann a).call v) (iterValidator dq e.call)) := by
  have hget : ∃ k g, getF h (some args) = .ok (.wrap false k (classAnn c args) [g]) ∧ getF he none = .ok g ∧
      k.negKeys = tu ∧ (k = .iter ∧ dq = false ∨ k = .tupleVar ∧ dq = false ∨ k = .deque ∧ dq = true) := by
    have hok : ∃ g, getF he none = .ok g := by
      cases e : getF he none with
      | ok g => exact ⟨g, rfl⟩
      | error e' =>
        exfalso
        cases hw <;> simp [makeFiller, getFiller, getF, e] at hf
    obtain ⟨g, hg⟩ := hok
    cases hw with
    | iter => exact ⟨_, g, by simp [getF, hg], hg, rfl, .inl ⟨rfl, rfl⟩⟩
    | tuple => exact ⟨_, g, by simp [getF, hg], hg, rfl, .inr (.inl ⟨rfl, rfl⟩)⟩
    | deque => exact ⟨_, g, by simp [getF, hg], hg, rfl, .inr (.inr ⟨rfl, rfl⟩)⟩
  obtain ⟨k, g, hget, hg, htu, hk⟩ := hget
  obtain ⟨a, a', bs, ha, hfin, rfl, hl, hbs⟩ := make_wrap hget hf
  obtain ⟨g', b, hb0, hg', hbind⟩ := hbs 0 g rfl
  obtain rfl : bs = [b] := by
    rcases bs with _ | ⟨x, _ | ⟨y, l⟩⟩ <;> simp at hl hb0
    rw [hb0]
  refine ⟨a, b, ha, ?_, ?_, ?_⟩
  · rw [htu] at hg'
    simp only [List.length_cons, List.length_nil, Nat.zero_add] at hg'
    simp [memberFiller, getFiller, hg, hg', hbind]
  · intro hh v
    rw [call_wrap]
    rcases hk with ⟨rfl, -⟩ | ⟨rfl, -⟩ | ⟨rfl, -⟩ <;> simp [wrapFinish, hh] at hfin <;> rw [hfin]
  · intro hh
    have : a.style ≠ .hollow ∧ a' = a.addValidator (iterValidator dq b.call) := by
      rcases hk with ⟨rfl, rfl⟩ | ⟨rfl, rfl⟩ | ⟨rfl, rfl⟩ <;> simp only [wrapFinish, hh] at hfin <;>
        simp only [Bool.false_eq_true, if_false] at hfin <;> split at hfin <;>
        first | (cases hfin; done) | (cases hfin; exact ⟨by assumption, rfl⟩)
    refine ⟨this.1, fun v => ?_⟩
    rw [this.2, call_wrap_add]

/-- C34, C37 (deque), C25: exact behaviour of `List[h]`, `Set[h]`, `Sequence[h]`, `Tuple[h, ...]`, `Deque[h]` fields whose
elements are checked.  `x` is the checked/coerced/validated container.  Elements are filled once each, in order.  If all
come out identical, `x` itself is stored; otherwise a new container is built by the class of `x` from exactly the filled
elements (for deques with the maxlen of `x`); if some element fails, its exception is raised (RuntimeError for StopIteration if an
element before it changed). -/
theorem C34_elements {d : Style} {pre : List (Option Int × Tok W)} {h he : Hint W} {c : W.Cls} {dq tu : Bool}
    {args : List (Tok W)} {f : F W} (hw : ElementWise h c he dq tu) (hf : makeFiller d pre (.annotated h args) = .ok f) :
    ∃ a e, Ann.make d (classKind c) (ownTokens pre) args = .ok a ∧ memberFiller d (partTokens tu 1 0 pre) he = .ok e ∧
      (e.isHollow = false → ∀ v s,
        (∀ er s1, (F.ann a).call v s = (.error er, s1) → f.call v s = (.error er, s1)) ∧
        (∀ x s1, (F.ann a).call v s = (.ok x, s1) →
          (∀ ws s2, FillSeq ((W.elems x).map fun o => (o, e.call)) s1 ws s2 →
            (ws = W.elems x → f.call v s = (.ok x, s2)) ∧
            (ws ≠ W.elems x → W.drains (W.typeOf x) = true →
              f.call v s = M.lift (if dq then W.mkDeque (W.typeOf x) ws (W.maxlen x) else W.mkIter (W.typeOf x) ws) s2)) ∧
          (∀ ws er s2, FillSeqFails ((W.elems x).map fun o => (o, e.call)) s1 ws er s2 →
            (ws <+: W.elems x → f.call v s = (.error er, s2)) ∧
            (¬ ws <+: W.elems x → W.drains (W.typeOf x) = true →
              (er.kind ≠ .stopIteration → f.call v s = (.error er, s2)) ∧
              (er.kind = .stopIteration → f.call v s = (.error .runtimeError, s2)))))) := by
  obtain ⟨a, e, ha, hee, -, hcall⟩ := elementWise_make hw hf
  refine ⟨a, e, ha, hee, fun hh v s => ?_⟩
  obtain ⟨-, hcall⟩ := hcall hh
  rw [hcall v]
  refine ⟨fun er s1 h1 => M.bind_error h1, fun x s1 h1 => ?_⟩
  rw [M.bind_ok h1]
  have hfst : (((W.elems x).map fun o => (o, e.call)).map Prod.fst) = W.elems x := by
    rw [List.map_map]; exact (List.map_congr_left (fun _ _ => rfl)).trans (List.map_id _)
  refine ⟨fun ws s2 hs => ⟨fun hw' => ?_, fun hw' hd => ?_⟩, fun ws er s2 hs => ⟨fun hw' => ?_, fun hw' hd => ?_⟩⟩
  · unfold iterValidator
    exact elemLoop_same hs (by rw [hfst]; exact hw') []
  · unfold iterValidator
    rw [hd, elemLoop_rebuild hs (by rw [hfst]; exact hw') []]
    simp
  · unfold iterValidator
    exact elemLoop_fails hs (by rw [hfst]; exact hw') []
  · unfold iterValidator
    rw [hd, elemLoop_failsLate hs (by rw [hfst]; exact hw') []]
    exact ⟨fun hk => by rw [Exc.leaving_of_ne hk], fun hk => by rw [Exc.leaving_stop hk]⟩

/-- one of the two cases of `C34_elements` always applies -/
theorem C34_total (es : List (W.Obj × (W.Obj → M W W.Obj))) (s : LState W) :
    (∃ ws s', FillSeq es s ws s') ∨ ∃ ws e s', FillSeqFails es s ws e s' := fillSeq_total es s

/-- `List[Annotated[int, coercer]]`: `[1, "5", 2]` is rebuilt, `[1, 2]` is kept -/
example : ∃ f, makeFiller (W := Toy.W) .check [] (.annotated (.iter .list (.annotated (.cls .int) [Toy.looseTok])) []) = .ok f ∧
    f.call (Toy.list [.int 1, .str "5", .int 2]) Toy.s0 = (.ok (Toy.list [.int 1, .int 5, .int 2]), Toy.s0) ∧
    f.call (Toy.list [.int 1, .int 2]) Toy.s0 = (.ok (Toy.list [.int 1, .int 2]), Toy.s0) ∧
    (f.call (Toy.list [.int 1, .none]) Toy.s0).1 = .error .valueError := ⟨_, rfl, rfl, rfl, rfl⟩

/-- coerces `"5"` to 5 and raises StopIteration for `None` -/
def Toy.endTok : Tok Toy.W := Toy.ctok fun v => match v with
  | .str "5" => M.pure (.int 5)
  | .none => M.throw .stopIteration
  | _ => M.throw .valueError

/-- StopIteration of an element stays StopIteration before the first change, and becomes RuntimeError after it -/
example : ∃ f, makeFiller (W := Toy.W) .check [] (.annotated (.iter .list (.annotated (.cls .int) [Toy.endTok])) []) = .ok f ∧
    (f.call (Toy.list [.int 1, .none]) Toy.s0).1 = .error .stopIteration ∧
    (f.call (Toy.list [.str "5", .int 1, .none]) Toy.s0).1 = .error .runtimeError := ⟨_, rfl, rfl, rfl⟩

/-- Exact behaviour for a class whose constructor does not consume an iterator of elements (such as `str`): the first
element that changes ends the filling, and the result is whatever the constructor makes of an iterator object. -/
theorem C41_exact {d : Style} {pre : List (Option Int × Tok W)} {h he : Hint W} {c : W.Cls} {dq tu : Bool}
    {args : List (Tok W)} {f : F W} (hw : ElementWise h c he dq tu) (hf : makeFiller d pre (.annotated h args) = .ok f) :
    ∃ a e, Ann.make d (classKind c) (ownTokens pre) args = .ok a ∧ memberFiller d (partTokens tu 1 0 pre) he = .ok e ∧
      (e.isHollow = false → ∀ v s x s1, (F.ann a).call v s = (.ok x, s1) → W.drains (W.typeOf x) = false →
        ∀ l o r s2 w s3, W.elems x = l ++ o :: r → FillSeq (l.map fun o => (o, e.call)) s1 l s2 → e.call o s2 = (.ok w, s3) →
          w ≠ o → f.call v s = M.lift (if dq then W.mkDeque (W.typeOf x) [] (W.maxlen x) else W.mkIter (W.typeOf x) []) s3) := by
  obtain ⟨a, e, ha, hee, -, hcall⟩ := elementWise_make hw hf
  refine ⟨a, e, ha, hee, fun hh v s x s1 h1 hd l o r s2 w s3 hel hs ho hne => ?_⟩
  obtain ⟨-, hcall⟩ := hcall hh
  rw [hcall v, M.bind_ok h1]
  unfold iterValidator
  rw [hd, hel]
  simp only [List.map_append, List.map_cons]
  have hfst : ((l.map fun o => (o, e.call)).map Prod.fst) = l := by
    rw [List.map_map]; exact (List.map_congr_left (fun _ _ => rfl)).trans (List.map_id _)
  exact elemLoop_stuck hs hfst.symm ho hne _ _

/-- Refutation of the expected claim: a `Sequence[Annotated[int, coercer]]` field stores garbage for `"ab"`. -/
theorem C41_refuted : ∃ f, makeFiller (W := Toy.W) .check []
      (.annotated (.iter .sequenceABC (.annotated (.cls .int) [Toy.ctok (Toy.ret 1 (.int 7))])) []) = .ok f ∧
    f.call (.str "ab") Toy.s0 = (.ok (.str "<itertools.chain object>"), ⟨[1], fun _ => []⟩) := ⟨_, rfl, rfl⟩

/-! ### C35 -/

theorem getFs_ok_iff {hs : List (Hint W)} {fs : List (F W)} (h : getFs hs = .ok fs) :
    fs.length = hs.length ∧ ∀ (i : Nat) (h : Hint W) (f : F W), hs[i]? = some h → fs[i]? = some f → getF h none = .ok f :=
  getFs_get h

/-- C35, C25: exact behaviour of a checked `Tuple[h1, ..., hn]` field.  `x` is the checked/coerced/validated tuple.  If its
length is not `n`: ValueError.  Otherwise, if some member is checked, position `i` is filled with filler `i`, in order, and
`x` itself is stored if nothing changed, else a new tuple of the same class; if no member is checked, `x` is stored. -/
theorem C35_tuple {d : Style} {pre : List (Option Int × Tok W)} {hs : List (Hint W)} {args : List (Tok W)} {f : F W}
    (hf : makeFiller d pre (.annotated (.tupleFix hs) args) = .ok f) :
    ∃ (a : Ann W) (bs : List (F W)), Ann.make d (classKind W.tupleCls) (ownTokens pre) args = .ok a ∧ bs.length = hs.length ∧
      (∀ (j : Nat) h b, hs[j]? = some h → bs[j]? = some b → memberFiller d (partTokens true hs.length j pre) h = .ok b) ∧
      (a.style ≠ .hollow → ∀ v s,
        (∀ er s1, (F.ann a).call v s = (.error er, s1) → f.call v s = (.error er, s1)) ∧
        (∀ x s1, (F.ann a).call v s = (.ok x, s1) →
          ((W.elems x).length ≠ hs.length → f.call v s = (.error .valueError, s1)) ∧
          ((W.elems x).length = hs.length →
            ((∀ b ∈ bs, b.isHollow = true) → f.call v s = (.ok x, s1)) ∧
            ((∃ b ∈ bs, b.isHollow = false) →
              (∀ ws s2, FillSeq ((W.elems x).zip (bs.map F.call)) s1 ws s2 →
                (ws = W.elems x → f.call v s = (.ok x, s2)) ∧
                (ws ≠ W.elems x → W.drains (W.typeOf x) = true → f.call v s = M.lift (W.mkIter (W.typeOf x) ws) s2)) ∧
              (∀ ws er s2, FillSeqFails ((W.elems x).zip (bs.map F.call)) s1 ws er s2 →
                (ws <+: W.elems x → f.call v s = (.error er, s2)) ∧
                (¬ ws <+: W.elems x → W.drains (W.typeOf x) = true →
                  (er.kind ≠ .stopIteration → f.call v s = (.error er, s2)) ∧
                  (er.kind = .stopIteration → f.call v s = (.error .runtimeError, s2)))))))) := by
  have hok : ∃ fs, getFs hs = .ok fs := by
    cases e : getFs hs with
    | ok fs => exact ⟨fs, rfl⟩
    | error e' => simp [makeFiller, getFiller, getF, e] at hf
  obtain ⟨fs, hfs⟩ := hok
  have hget : getF (.tupleFix hs) (some args) = .ok (.wrap false .tupleFix (classAnn W.tupleCls args) fs) := by
    simp [getF, hfs]
  obtain ⟨hlen, hgets⟩ := getFs_get hfs
  obtain ⟨a, a', bs, ha, hfin, rfl, hl, hbs⟩ := make_wrap hget hf
  refine ⟨a, bs, ha, hl.trans hlen, ?_, ?_⟩
  · intro j h b hj hb
    have hlt : j < hs.length := (List.getElem?_eq_some_iff.1 hj).1
    obtain ⟨g, hg⟩ : ∃ g, fs[j]? = some g := ⟨_, List.getElem?_eq_getElem (by omega)⟩
    obtain ⟨g', b', hb', hg', hbind⟩ := hbs j g hg
    rw [hb] at hb'
    cases hb'
    rw [hlen] at hg'
    simp only [WrapKind.negKeys] at hg'
    simp [memberFiller, getFiller, hgets j h g hj hg, hg', hbind]
  · intro hst v s
    have hlen' : bs.length = hs.length := hl.trans hlen
    by_cases hall : F.allHollow bs = true
    · have e : a' = a.addValidator (tupleLenValidator bs.length) := by simp [wrapFinish, hall, hst] at hfin; exact hfin.symm
      rw [e, call_wrap_add]
      refine ⟨fun er s1 h1 => M.bind_error h1, fun x s1 h1 => ?_⟩
      rw [M.bind_ok h1]
      simp only [tupleLenValidator, hlen']
      refine ⟨fun hx => by simp [hx, M.throw], fun hx => ⟨fun _ => by simp [hx, M.pure], ?_⟩⟩
      rintro ⟨b, hb, hbh⟩
      rw [F.allHollow_iff] at hall
      rw [hall b hb] at hbh
      cases hbh
    · have e : a' = (a.addValidator (tupleLenValidator bs.length)).addValidator (tupleValidator (bs.map F.call)) := by
        simp [wrapFinish, hall, hst] at hfin; exact hfin.symm
      rw [e, call_wrap_add, call_addValidator]
      refine ⟨fun er s1 h1 => by rw [M.bind_error (M.bind_error h1)], fun x s1 h1 => ?_⟩
      rw [M.bind_assoc, M.bind_ok h1]
      refine ⟨fun hx => ?_, fun hx => ⟨fun hh => absurd (F.allHollow_iff.2 hh) hall, fun _ => ?_⟩⟩
      · have : tupleLenValidator bs.length x s1 = (.error .valueError, s1) := by
          simp [tupleLenValidator, hlen', hx, M.throw]
        rw [M.bind_error this]
      · have : tupleLenValidator bs.length x s1 = (.ok x, s1) := by
          simp [tupleLenValidator, hlen', hx, M.pure]
        rw [M.bind_ok this]
        have hfst : ((W.elems x).zip (bs.map F.call)).map Prod.fst = W.elems x := by
          rw [List.map_fst_zip]
          simp; omega
        refine ⟨fun ws s2 hsq => ⟨fun hw' => ?_, fun hw' hd => ?_⟩, fun ws er s2 hsq => ⟨fun hw' => ?_, fun hw' hd => ?_⟩⟩
        · unfold tupleValidator
          exact elemLoop_same hsq (by rw [hfst]; exact hw') []
        · unfold tupleValidator
          rw [hd, elemLoop_rebuild hsq (by rw [hfst]; exact hw') []]
          simp
        · unfold tupleValidator
          exact elemLoop_fails hsq (by rw [hfst]; exact hw') []
        · unfold tupleValidator
          rw [hd, elemLoop_failsLate hsq (by rw [hfst]; exact hw') []]
          exact ⟨fun hk => by rw [Exc.leaving_of_ne hk], fun hk => by rw [Exc.leaving_stop hk]⟩

/-- `Tuple[int, str]`: wrong length, right shape, wrong member -/
example : ∃ f, makeFiller (W := Toy.W) .check [] (.annotated (.tupleFix [.cls .int, .cls .str]) []) = .ok f ∧
    (f.call (Toy.tuple [.int 1]) Toy.s0).1 = .error .valueError ∧
    (f.call (Toy.tuple [.int 1, .str "a"]) Toy.s0).1 = .ok (Toy.tuple [.int 1, .str "a"]) ∧
    (f.call (Toy.tuple [.str "a", .str "a"]) Toy.s0).1 = .error .typeError := ⟨_, rfl, rfl, rfl, rfl⟩

/-- only the tuple is checked, not its members: the length is still enforced -/
example : ∃ f, makeFiller (W := Toy.W) .hollow [] (.annotated (.tupleFix [.cls .int, .cls .str]) [.style .check]) = .ok f ∧
    (f.call (Toy.tuple [.int 1]) Toy.s0).1 = .error .valueError ∧
    (f.call (Toy.tuple [.none, .none]) Toy.s0).1 = .ok (Toy.tuple [.none, .none]) := ⟨_, rfl, rfl, rfl⟩

/-! ### C36 -/

/-- the structure of a mapping field -/
theorem pairWise_make {d : Style} {pre : List (Option Int × Tok W)} {h hk hv : Hint W} {c : W.Cls} {dd : Bool}
    {args : List (Tok W)} {f : F W} (hw : PairWise h c hk hv dd) (hf : makeFiller d pre (.annotated h args) = .ok f) :
    ∃ a fk fv, Ann.make d (classKind c) (ownTokens pre) args = .ok a ∧ memberFiller d (partTokens false 2 0 pre) hk = .ok fk ∧
      memberFiller d (partTokens false 2 1 pre) hv = .ok fv ∧
      (fk.isHollow = true ∧ fv.isHollow = true → ∀ v, f.call v = (F.ann a).call v) ∧
      (fk.isHollow = false ∨ fv.isHollow = false → a.style ≠ .hollow ∧
        ∀ v, f.call v = M.bind ((F.ann a).call v) (mapValidator dd fk.call fv.call)) := by
  have hget : ∃ k gk gv, getF h (some args) = .ok (.wrap false k (classAnn c args) [gk, gv]) ∧ getF hk none = .ok gk ∧
      getF hv none = .ok gv ∧ k.negKeys = false ∧ (k = .mapping ∧ dd = false ∨ k = .defaultdict ∧ dd = true) := by
    have hok : ∃ gk gv, getF hk none = .ok gk ∧ getF hv none = .ok gv := by
      cases e : getF hk none with
      | ok gk =>
        cases e2 : getF hv none with
        | ok gv => exact ⟨gk, gv, rfl, rfl⟩
        | error e' =>
          exfalso
          cases hw <;> simp [makeFiller, getFiller, getF, e, e2] at hf
      | error e' =>
        exfalso
        cases hw <;> simp [makeFiller, getFiller, getF, e] at hf
    obtain ⟨gk, gv, h1, h2⟩ := hok
    cases hw with
    | mapping => exact ⟨_, gk, gv, by simp [getF, h1, h2], h1, h2, rfl, .inl ⟨rfl, rfl⟩⟩
    | defaultdict => exact ⟨_, gk, gv, by simp [getF, h1, h2], h1, h2, rfl, .inr ⟨rfl, rfl⟩⟩
  obtain ⟨k, gk, gv, hget, hgk, hgv, hneg, hkk⟩ := hget
  obtain ⟨a, a', bs, ha, hfin, rfl, hl, hbs⟩ := make_wrap hget hf
  obtain ⟨gk', bk, hb0, hgk', hbindk⟩ := hbs 0 gk rfl
  obtain ⟨gv', bv, hb1, hgv', hbindv⟩ := hbs 1 gv rfl
  obtain rfl : bs = [bk, bv] := by
    rcases bs with _ | ⟨x, _ | ⟨y, _ | ⟨z, l⟩⟩⟩ <;> simp at hl hb0 hb1
    rw [hb0, hb1]
  rw [hneg] at hgk' hgv'
  simp only [List.length_cons, List.length_nil, Nat.zero_add] at hgk' hgv'
  refine ⟨a, bk, bv, ha, ?_, ?_, ?_, ?_⟩
  · simp [memberFiller, getFiller, hgk, hgk', hbindk]
  · simp [memberFiller, getFiller, hgv, hgv', hbindv]
  · rintro ⟨h1, h2⟩ v
    rw [call_wrap]
    rcases hkk with ⟨rfl, -⟩ | ⟨rfl, -⟩ <;> simp [wrapFinish, h1, h2] at hfin <;> rw [hfin]
  · intro hh
    have hb : (bk.isHollow && bv.isHollow) = false := by rcases hh with h | h <;> simp [h]
    have : a.style ≠ .hollow ∧ a' = a.addValidator (mapValidator dd bk.call bv.call) := by
      rcases hkk with ⟨rfl, rfl⟩ | ⟨rfl, rfl⟩ <;> simp only [wrapFinish, hb] at hfin <;>
        simp only [Bool.false_eq_true, if_false] at hfin <;> split at hfin <;>
        first | (cases hfin; done) | (cases hfin; exact ⟨by assumption, rfl⟩)
    refine ⟨this.1, fun v => ?_⟩
    rw [this.2, call_wrap_add]

/-- C36, C37 (defaultdict), C25: exact behaviour of a mapping field with checked keys or values.  `x` is the
checked/coerced/validated mapping.  Key and value of every item are filled once each, in order (key before value).  If all
come out identical, `x` itself is stored; otherwise a new mapping is built by the class of `x` from exactly the filled
pairs in order (for a defaultdict with the default_factory of `x`); if some key or value fails, its exception is raised. -/
theorem C36_mapping {d : Style} {pre : List (Option Int × Tok W)} {h hk hv : Hint W} {c : W.Cls} {dd : Bool}
    {args : List (Tok W)} {f : F W} (hw : PairWise h c hk hv dd) (hf : makeFiller d pre (.annotated h args) = .ok f) :
    ∃ a fk fv, Ann.make d (classKind c) (ownTokens pre) args = .ok a ∧ memberFiller d (partTokens false 2 0 pre) hk = .ok fk ∧
      memberFiller d (partTokens false 2 1 pre) hv = .ok fv ∧
      (fk.isHollow = false ∨ fv.isHollow = false → ∀ v s,
        (∀ er s1, (F.ann a).call v s = (.error er, s1) → f.call v s = (.error er, s1)) ∧
        (∀ x s1, (F.ann a).call v s = (.ok x, s1) →
          (∀ ws s2, FillSeq (interleave fk.call fv.call (W.items x)) s1 ws s2 →
            (pairUp ws = W.items x → f.call v s = (.ok x, s2)) ∧
            (pairUp ws ≠ W.items x → f.call v s =
              M.lift (if dd then W.mkDefaultDict (W.typeOf x) (W.defaultFactory x) (pairUp ws)
                else W.mkMap (W.typeOf x) (pairUp ws)) s2)) ∧
          (∀ ws er s2, FillSeqFails (interleave fk.call fv.call (W.items x)) s1 ws er s2 → f.call v s = (.error er, s2)))) := by
  obtain ⟨a, fk, fv, ha, hfk, hfv, -, hcall⟩ := pairWise_make hw hf
  refine ⟨a, fk, fv, ha, hfk, hfv, fun hh v s => ?_⟩
  obtain ⟨-, hcall⟩ := hcall hh
  rw [hcall v]
  refine ⟨fun er s1 h1 => M.bind_error h1, fun x s1 h1 => ?_⟩
  rw [M.bind_ok h1]
  refine ⟨fun ws s2 hs => ?_, fun _ er s2 hs => ?_⟩
  · obtain ⟨i1, i2⟩ := fillSeq_pairs hs
    unfold mapValidator
    rw [M.bind_ok i1]
    have hch := pairs_changed i2
    constructor
    · intro hp
      have : ((W.items x).zip (pairUp ws)).any (fun q => decide (q.1.1 ≠ q.2.1) || decide (q.1.2 ≠ q.2.2)) = false := by
        rw [Bool.eq_false_iff]; intro hx; exact hch.1 hx hp
      simp only [this]
      rfl
    · intro hp
      simp only [hch.2 hp, if_true]
  · unfold mapValidator
    rw [M.bind_error (fillSeqFails_pairs hs)]

/-- `Dict[str, Annotated[int, coercer]]` -/
example : ∃ f, makeFiller (W := Toy.W) .check [] (.annotated (.mapping .dict (.cls .str) (.annotated (.cls .int) [Toy.looseTok])) []) = .ok f ∧
    f.call (Toy.dict [(.str "a", .str "5"), (.str "b", .int 1)]) Toy.s0 =
      (.ok (Toy.dict [(.str "a", .int 5), (.str "b", .int 1)]), Toy.s0) ∧
    f.call (Toy.dict [(.str "a", .int 5)]) Toy.s0 = (.ok (Toy.dict [(.str "a", .int 5)]), Toy.s0) := ⟨_, rfl, rfl, rfl⟩

/-! ### C37 -/

/-- A rebuilt deque gets the maxlen, a rebuilt defaultdict the default_factory of the original. -/
theorem C37_rebuild {d : Style} {pre : List (Option Int × Tok W)} {c : W.Cls} {args : List (Tok W)} {f : F W} :
    (∀ he, makeFiller d pre (.annotated (.deque c he) args) = .ok f →
      ∃ a e, Ann.make d (classKind c) (ownTokens pre) args = .ok a ∧ memberFiller d (partTokens false 1 0 pre) he = .ok e ∧
        ∀ v s x s1 ws s2, e.isHollow = false → (F.ann a).call v s = (.ok x, s1) →
          FillSeq ((W.elems x).map fun o => (o, e.call)) s1 ws s2 → ws ≠ W.elems x → W.drains (W.typeOf x) = true →
          f.call v s = M.lift (W.mkDeque (W.typeOf x) ws (W.maxlen x)) s2) ∧
    (∀ hk hv, makeFiller d pre (.annotated (.defaultdict c hk hv) args) = .ok f →
      ∃ a fk fv, Ann.make d (classKind c) (ownTokens pre) args = .ok a ∧ memberFiller d (partTokens false 2 0 pre) hk = .ok fk ∧
        memberFiller d (partTokens false 2 1 pre) hv = .ok fv ∧
        ∀ v s x s1 ws s2, fk.isHollow = false ∨ fv.isHollow = false → (F.ann a).call v s = (.ok x, s1) →
          FillSeq (interleave fk.call fv.call (W.items x)) s1 ws s2 → pairUp ws ≠ W.items x →
          f.call v s = M.lift (W.mkDefaultDict (W.typeOf x) (W.defaultFactory x) (pairUp ws)) s2) := by
  constructor
  · intro he hf
    obtain ⟨a, e, ha, hee, h⟩ := C34_elements (.deque c he) hf
    exact ⟨a, e, ha, hee, fun v s x s1 ws s2 hh h1 h2 h3 h4 => (((h hh v s).2 x s1 h1).1 ws s2 h2).2 h3 h4⟩
  · intro hk hv hf
    obtain ⟨a, fk, fv, ha, h1, h2, h⟩ := C36_mapping (.defaultdict c hk hv) hf
    exact ⟨a, fk, fv, ha, h1, h2, fun v s x s1 ws s2 hh g1 g2 g3 => (((h hh v s).2 x s1 g1).1 ws s2 g2).2 g3⟩

example : ∃ f, makeFiller (W := Toy.W) .check [] (.annotated (.deque .deque (.annotated (.cls .int) [Toy.looseTok])) []) = .ok f ∧
    f.call (.seq .deque (Toy.spine [.str "5"])) Toy.s0 = (.ok (.seq .deque (Toy.spine [.int 5])), Toy.s0) := ⟨_, rfl, rfl⟩

/-! ### C40 -/

/-- Exact behaviour of containers with unchecked (hollow) parts: the parts are not looked at, whatever validators they
carry; the field behaves like one of the bare container class. (Checked parts: `C34_elements`, `C36_mapping`.) -/
theorem C40_hollow_parts {d : Style} {pre : List (Option Int × Tok W)} {h : Hint W} {c : W.Cls} {args : List (Tok W)} {f : F W}
    (hf : makeFiller d pre (.annotated h args) = .ok f) :
    (∀ he dq tu, ElementWise h c he dq tu →
      ∃ a e, Ann.make d (classKind c) (ownTokens pre) args = .ok a ∧ memberFiller d (partTokens tu 1 0 pre) he = .ok e ∧
        (e.isHollow = true → ∀ v s, f.call v s = (F.ann a).call v s)) ∧
    (∀ hk hv dd, PairWise h c hk hv dd →
      ∃ a fk fv, Ann.make d (classKind c) (ownTokens pre) args = .ok a ∧ memberFiller d (partTokens false 2 0 pre) hk = .ok fk ∧
        memberFiller d (partTokens false 2 1 pre) hv = .ok fv ∧
        (fk.isHollow = true ∧ fv.isHollow = true → ∀ v s, f.call v s = (F.ann a).call v s)) := by
  constructor
  · intro he dq tu hw
    obtain ⟨a, e, ha, hee, h1, -⟩ := elementWise_make hw hf
    exact ⟨a, e, ha, hee, fun hh v s => by rw [h1 hh v]⟩
  · intro hk hv dd hw
    obtain ⟨a, fk, fv, ha, h1, h2, h3, -⟩ := pairWise_make hw hf
    exact ⟨a, fk, fv, ha, h1, h2, fun hh v s => by rw [h3 hh v]⟩

/-- Refutation of the expected claim: `List[Annotated[int, validator]]` stores elements its validator rejects. -/
theorem C40_refuted : ∃ f, makeFiller (W := Toy.W) .hollow []
      (.annotated (.iter .list (.annotated (.cls .int) [Toy.vtok (Toy.err 1 .valueError)])) []) = .ok f ∧
    f.call (Toy.list [.int 1]) Toy.s0 = (.ok (Toy.list [.int 1]), Toy.s0) := ⟨_, rfl, rfl⟩

/-- For checked elements: when the field accepts a value, every element of the checked container `x` went through the
element filler (so its validators ran), and the stored container is `x` itself or one built by its class from exactly the
results.  (`drains`: the class consumes its constructor argument.) -/
theorem C40_checked {d : Style} {pre : List (Option Int × Tok W)} {h he : Hint W} {c : W.Cls} {dq tu : Bool}
    {args : List (Tok W)} {f : F W} (hw : ElementWise h c he dq tu) (hf : makeFiller d pre (.annotated h args) = .ok f) :
    ∃ a e, Ann.make d (classKind c) (ownTokens pre) args = .ok a ∧ memberFiller d (partTokens tu 1 0 pre) he = .ok e ∧
      (e.isHollow = false → ∀ v s w s', f.call v s = (.ok w, s') →
        ∃ x s1, (F.ann a).call v s = (.ok x, s1) ∧
          (W.drains (W.typeOf x) = true → ∃ ws s2, FillSeq ((W.elems x).map fun o => (o, e.call)) s1 ws s2 ∧
            (ws = W.elems x ∧ w = x ∧ s' = s2 ∨
              M.lift (if dq then W.mkDeque (W.typeOf x) ws (W.maxlen x) else W.mkIter (W.typeOf x) ws) s2 = (.ok w, s')))) := by
  obtain ⟨a, e, ha, hee, hc⟩ := C34_elements hw hf
  refine ⟨a, e, ha, hee, fun hh v s w s' hcall => ?_⟩
  rcases hr : (F.ann a).call v s with ⟨r, s1⟩
  cases r with
  | error er =>
    have := (hc hh v s).1 er s1 hr
    rw [this] at hcall; cases hcall
  | ok x =>
    refine ⟨x, s1, rfl, fun hd => ?_⟩
    rcases fillSeq_total ((W.elems x).map fun o => (o, e.call)) s1 with ⟨ws, s2, h⟩ | ⟨ws, er, s2, h⟩
    · refine ⟨ws, s2, h, ?_⟩
      have h2 := ((hc hh v s).2 x s1 hr).1 ws s2 h
      by_cases hws : ws = W.elems x
      · have := h2.1 hws
        rw [this] at hcall
        cases hcall
        exact .inl ⟨hws, rfl, rfl⟩
      · have := h2.2 hws hd
        rw [this] at hcall
        exact .inr hcall
    · obtain ⟨h1, h2⟩ := ((hc hh v s).2 x s1 hr).2 ws er s2 h
      by_cases hp : ws <+: W.elems x
      · rw [h1 hp] at hcall; cases hcall
      · by_cases hk : er.kind = .stopIteration
        · rw [(h2 hp hd).2 hk] at hcall; cases hcall
        · rw [(h2 hp hd).1 hk] at hcall; cases hcall

/-- The same for mappings: when keys or values are checked, every key and every value of the checked mapping `x` went
through its filler, and the stored mapping is `x` itself or one built from exactly the results. -/
theorem C40_checked_mapping {d : Style} {pre : List (Option Int × Tok W)} {h hk hv : Hint W} {c : W.Cls} {dd : Bool}
    {args : List (Tok W)} {f : F W} (hw : PairWise h c hk hv dd) (hf : makeFiller d pre (.annotated h args) = .ok f) :
    ∃ a fk fv, Ann.make d (classKind c) (ownTokens pre) args = .ok a ∧ memberFiller d (partTokens false 2 0 pre) hk = .ok fk ∧
      memberFiller d (partTokens false 2 1 pre) hv = .ok fv ∧
      (fk.isHollow = false ∨ fv.isHollow = false → ∀ v s w s', f.call v s = (.ok w, s') →
        ∃ x s1, (F.ann a).call v s = (.ok x, s1) ∧
          ∃ ws s2, FillSeq (interleave fk.call fv.call (W.items x)) s1 ws s2 ∧
            (pairUp ws = W.items x ∧ w = x ∧ s' = s2 ∨
              M.lift (if dd then W.mkDefaultDict (W.typeOf x) (W.defaultFactory x) (pairUp ws)
                else W.mkMap (W.typeOf x) (pairUp ws)) s2 = (.ok w, s'))) := by
  obtain ⟨a, fk, fv, ha, hfk, hfv, hc⟩ := C36_mapping hw hf
  refine ⟨a, fk, fv, ha, hfk, hfv, fun hh v s w s' hcall => ?_⟩
  rcases hr : (F.ann a).call v s with ⟨r, s1⟩
  cases r with
  | error er =>
    have := (hc hh v s).1 er s1 hr
    rw [this] at hcall; cases hcall
  | ok x =>
    refine ⟨x, s1, rfl, ?_⟩
    rcases fillSeq_total (interleave fk.call fv.call (W.items x)) s1 with ⟨ws, s2, h⟩ | ⟨ws, er, s2, h⟩
    · refine ⟨ws, s2, h, ?_⟩
      have h2 := ((hc hh v s).2 x s1 hr).1 ws s2 h
      by_cases hws : pairUp ws = W.items x
      · have := h2.1 hws
        rw [this] at hcall
        cases hcall
        exact .inl ⟨hws, rfl, rfl⟩
      · have := h2.2 hws
        rw [this] at hcall
        exact .inr hcall
    · have := ((hc hh v s).2 x s1 hr).2 ws er s2 h
      rw [this] at hcall; cases hcall

/-- `List[Annotated[int, Loose, validator]]`: the elements go through coercion and validator, the list is rebuilt -/
example : ∃ f, makeFiller (W := Toy.W) .check []
      (.annotated (.iter .list (.annotated (.cls .int) [Toy.looseTok, Toy.vtok (Toy.pass 1)])) []) = .ok f ∧
    f.call (Toy.list [.int 1, .str "5"]) Toy.s0 = (.ok (Toy.list [.int 1, .int 5]), ⟨[1, 1], fun _ => []⟩) := ⟨_, rfl, rfl⟩

end Records

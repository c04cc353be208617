import Verif.Spec.Archive
import Verif.Props.Documents
import Verif.Props.Export
/-
C126: nested records exported as nested mappings and read back.
-/
namespace Records
variable {W : World} {E : Env W} {cls : W.Cls → RecClass W} {h : W.Obj → Node W} {U : W.Obj → Prop}

namespace ArchiveLemmas

theorem along_right {α β : Type} {r : α → β → Prop} : ∀ {xs : List α} {ys : List β}, Along r xs ys → ∀ y ∈ ys, ∃ x ∈ xs, r x y
  | [], [], _, y, hy => by cases hy
  | x :: xs, y' :: ys, h, y, hy => by
    rcases List.mem_cons.1 hy with rfl | hy
    · exact ⟨x, List.mem_cons_self, h.1⟩
    · obtain ⟨x', hx, hr⟩ := along_right h.2 y hy
      exact ⟨x', List.mem_cons_of_mem _ hx, hr⟩

theorem along_length {α β : Type} {r : α → β → Prop} : ∀ {xs : List α} {ys : List β}, Along r xs ys → xs.length = ys.length
  | [], [], _ => rfl
  | _ :: _, _ :: _, h => by simp [along_length h.2]

theorem along_nth {α β : Type} {r : α → β → Prop} : ∀ {xs : List α} {ys : List β}, Along r xs ys → ∀ (n : Nat) x y, xs[n]? = some x →
    ys[n]? = some y → r x y
  | [], [], _, n, x, y, hx, _ => by simp at hx
  | a :: xs, b :: ys, h, 0, x, y, hx, hy => by
    simp at hx hy
    subst hx; subst hy
    exact h.1
  | a :: xs, b :: ys, h, n + 1, x, y, hx, hy => along_nth h.2 n x y (by simpa using hx) (by simpa using hy)

/-- two steps, one after the other -/
theorem along_trans {α β γ : Type} {r : α → β → Prop} {q : β → γ → Prop} {t : α → γ → Prop} : ∀ {xs : List α} {ys : List β} {zs : List γ},
    Along r xs ys → Along q ys zs → (∀ x y z, y ∈ ys → r x y → q y z → t x z) → Along t xs zs
  | [], [], [], _, _, _ => trivial
  | _ :: _, _ :: _, _ :: _, h, h', hc => ⟨hc _ _ _ List.mem_cons_self h.1 h'.1,
      along_trans h.2 h'.2 fun x y z hy => hc x y z (List.mem_cons_of_mem _ hy)⟩

theorem along_swap {α β : Type} {r : α → β → Prop} {q : β → α → Prop} : ∀ {xs : List α} {ys : List β}, Along r xs ys →
    (∀ x y, x ∈ xs → r x y → q y x) → Along q ys xs
  | [], [], _, _ => trivial
  | _ :: _, _ :: _, h, hc => ⟨hc _ _ List.mem_cons_self h.1, along_swap h.2 fun x y hx => hc x y (List.mem_cons_of_mem _ hx)⟩

/-- the entries of the export -/
theorem exported {C : RecClass W} (hC : Creatable C) {i : Inst W} (hf : Full C i) {o : ExportOpts} {black : List Nat}
    (ho : o.blacklist = .tags black) (hd : DropsOnlyDefaults C i black o.whitelist) {d : Dict W.Obj} {s s' : LState W}
    (h : toDict C (.ofInst E i) o Sel.empty s = (.ok d, s')) :
    (∀ k y, (k, y) ∈ d → k ∈ C.fields.map (·.1) ∧ i.dict.get? k = some y) ∧
    ∀ k f, (k, f) ∈ C.fields → ∃ y, i.dict.get? k = some y ∧ ((k, y) ∈ d ∨ f.isPlainDefault y) := by
  obtain ⟨d', hd', hn, hm, -⟩ := C75_to_dict (E := E) hC hf ho s
  rw [hd'] at h
  have e : d' = d := by injection h with e _; injection e
  subst e
  have wf := hC.wf
  refine ⟨fun k y hky => ?_, fun k f hkf => ?_⟩
  · obtain ⟨f, hkf, hy, -⟩ := (hm k y).1 hky
    exact ⟨List.mem_map.2 ⟨_, hkf, rfl⟩, hy⟩
  · obtain ⟨y, hy⟩ := Option.isSome_iff_exists.1 ((Dict.get?_isSome_iff _ _).2 (hf k (List.mem_map.2 ⟨_, hkf, rfl⟩)))
    refine ⟨y, hy, ?_⟩
    by_cases hp : f.isPlainDefault y
    · exact .inr hp
    · refine .inl ((hm k y).2 ⟨f, hkf, hy, ?_⟩)
      have hname : f.name = k := wf.named k f (Dict.mem_get? _ wf.nodup _ _ hkf)
      rcases hd k f y hkf hy hp with hw | hb
      · exact .inl (hname ▸ hw)
      · exact .inr ⟨hb, .inr hp⟩

theorem required_plain {C : RecClass W} (hC : Creatable C) {k : String} (hk : k ∈ C.required) :
    ∃ f, (k, f) ∈ C.fields ∧ f.default = none := by
  have wf := hC.wf
  obtain ⟨f, h1, h2⟩ := (wf.req k).1 hk
  exact ⟨f, Dict.get?_eq_some_mem _ _ _ h1, h2⟩

theorem entries_in (hU : Documents E U) {v : W.Obj} (hv : U v) {m : Dict W.Obj} (hm : ∀ s, E.chainView v s = (.ok m, s)) (s : LState W)
    {k : String} {w : W.Obj} (hkw : (k, w) ∈ m) : U w := by
  rcases hU.view v hv with ⟨m', -, h2, h3, -⟩ | ⟨e, -, he⟩
  · have e : m' = m := by
      have := (h2 s).symm.trans (hm s)
      injection this with e _
      injection e
    exact h3 (k, w) (e ▸ hkw)
  · have := (hm s).symm.trans (he s)
    injection this with e _
    cases e

/-- an export is a document -/
theorem flat_doc (S : Schema W) : S.OK E cls U → ∀ x v, S.Flat E cls h x v → S.Doc E cls v := by
  induction S with
  | leaf D => exact fun _ x v hf => hf.1
  | list c S ih =>
    intro hS x v ⟨h1, h2, h4⟩
    refine ⟨h1, fun w hw => ?_⟩
    obtain ⟨y, -, hy⟩ := along_right h4 w hw
    exact ih hS.2.1 y w hy
  | either S T ihS ihT =>
    rintro hS x v (hf | hf)
    · exact .inl (ihS hS.1 x v hf)
    · exact .inr (ihT hS.2.1 x v hf)
  | record c ks ih =>
    rintro hS x v (⟨hi, -⟩ | ⟨-, i, o, black, d, m, s, s', hx, hc, hfull, ho, hdrop, hd, hv, hk, hflat⟩)
    · exact .inl hi
    · obtain ⟨h1, h2⟩ := exported hS.1.creatable hfull ho hdrop hd
      have hmd : ∀ k ∈ m.map (·.1), ∃ y, (k, y) ∈ d := by
        intro k hkm
        obtain ⟨⟨k', y⟩, hy, e⟩ := List.mem_map.1 ((hk k).1 hkm)
        exact ⟨y, by simp only at e; rw [← e]; exact hy⟩
      refine .inr ⟨m, hv, fun k hkm => ?_, fun k hkr => ?_, fun k w hkw => ?_⟩
      · obtain ⟨y, hy⟩ := hmd k hkm
        exact (h1 k y hy).1
      · obtain ⟨f, hkf, hn⟩ := required_plain hS.1.creatable hkr
        obtain ⟨y, -, hy | ⟨d, hy, -⟩⟩ := h2 k f hkf
        · exact (hk k).2 (List.mem_map.2 ⟨_, hy, rfl⟩)
        · rw [hn] at hy; cases hy
      · obtain ⟨y, hy⟩ := hmd k (List.mem_map.2 ⟨_, hkw, rfl⟩)
        obtain ⟨⟨k', f⟩, hkf, e⟩ := List.mem_map.1 (h1 k y hy).1
        simp only at e
        subst e
        exact ih k' (hS.2.2.2.1 k' f hkf).2.2 y w (hflat k' w y hkw hy)

/-- what an export means is a tree of the same shape as the original -/
theorem flat_read (hU : Documents E U) (S : Schema W) : S.OK E cls U → S.ListKinds cls h → S.TreeDefaults cls h → ∀ x v o, U v →
    S.Flat E cls h x v → S.Read E cls h v o → SameTree cls h x o := by
  induction S with
  | leaf D => rintro _ _ _ x v o _ hf rfl; exact hf.2
  | list c S ih =>
    rintro hS hL hT x v o hv ⟨h1, h2, h4⟩ ⟨ws, h5, h6⟩
    obtain ⟨hel, -, -⟩ := hS.2.2 v hv h1
    have hal : Along (SameTree cls h) (W.elems x) ws := along_trans h4 h5 fun a b z hb => ih hS.2.1 hL.2 hT a b z (hel b hb)
    have ho : W.typeOf o = W.typeOf x ∧ W.elems o = ws := by
      rcases h6 with ⟨e, rfl⟩ | ⟨-, e1, e2⟩
      · exact ⟨h2, e.symm⟩
      · exact ⟨e2.trans h2, e1⟩
    have hi : ∀ o, W.typeOf o = W.typeOf x → W.isInstance o c = true := fun o ho => by
      unfold World.isInstance at h1 ⊢; rw [ho, ← h2]; exact h1
    exact .list (hL.1 x (hi x rfl)) (hL.1 o (hi o ho.1)) (by rw [ho.2]; exact along_length hal) (by rw [ho.2]; exact along_nth hal)
  | either S T ihS ihT =>
    rintro hS hL hT x v o hv (hf | hf) (⟨hd, hr⟩ | ⟨hd, hr⟩)
    · exact ihS hS.1 hL.1 hT.1 x v o hv hf hr
    · exact absurd ⟨flat_doc S hS.1 x v hf, hd⟩ (hS.2.2 v hv)
    · exact absurd ⟨hd, flat_doc T hS.2.1 x v hf⟩ (hS.2.2 v hv)
    · exact ihT hS.2.1 hL.2 hT.2 x v o hv hf hr
  | record c ks ih =>
    rintro hS hL hT x v o hv (⟨hi, ht⟩ | ⟨hi, i, op, black, d, m, s, s', hx, hc, hfull, hop, hdrop, hd, hvm, hk, hflat⟩)
      (⟨hi', rfl⟩ | ⟨hi', m', j, hvm', ho, hjc, hjk, hjm, hjd⟩)
    · exact ht
    · rw [hi] at hi'; cases hi'
    · rw [hi] at hi'; cases hi'
    · have e : m' = m := by
        have := (hvm' s).symm.trans (hvm s)
        injection this with e _
        injection e
      subst e
      obtain ⟨h1, h2⟩ := exported hS.1.creatable hfull hop hdrop hd
      refine .record hx ho (hc.trans hjc.symm) fun k a b hkf0 ha hb => ?_
      rw [hc] at hkf0
      obtain ⟨⟨k', f⟩, hkf, e⟩ := List.mem_map.1 hkf0
      simp only at e
      subst e
      obtain ⟨y, hy, hyd⟩ := h2 k' f hkf
      have : y = a := by rw [ha] at hy; injection hy with e; exact e.symm
      subst this
      by_cases hkm : k' ∈ m'.map (·.1)
      · obtain ⟨⟨k2, w⟩, hkw, e⟩ := List.mem_map.1 hkm
        simp only at e
        subst e
        obtain ⟨⟨k3, y'⟩, hy', e⟩ := List.mem_map.1 ((hk k2).1 hkm)
        simp only at e
        subst e
        have e : y' = y := by
          have := (h1 k3 y' hy').2
          rw [ha] at this
          injection this with e
          exact e.symm
        subst e
        obtain ⟨b', hb', hr⟩ := hjm k3 w hkw
        have e : b' = b := by rw [hb] at hb'; injection hb' with e; exact e.symm
        subst e
        exact ih k3 (hS.2.2.2.1 k3 f hkf).2.2 (hL k3 hkf0) (hT k3 f hkf).2 y' w b' (entries_in hU hv hvm s hkw) (hflat k3 w y' hkw hy') hr
      · obtain ⟨dv, hdv, hbd⟩ := hjd k' f hkf hkm
        have e : dv = b := by rw [hb] at hbd; injection hbd with e; exact e.symm
        subst e
        rcases hyd with hyd | ⟨d2, hd2, he⟩
        · exact absurd ((hk k').2 (List.mem_map.2 ⟨_, hyd, rfl⟩)) hkm
        · rw [hdv] at hd2
          cases hd2
          exact (hT k' f hkf).1 dv y hdv he

/-- a document is an export of what it means -/
theorem read_flat (hU : Documents E U) (hE : ∀ d, W.eq d d = true) (hR : ∀ v, U v → SameTree cls h v v) (s : LState W) (S : Schema W) :
    S.OK E cls U →
    ∀ v o, U v → S.Doc E cls v → S.Read E cls h v o → S.Flat E cls h o v := by
  induction S with
  | leaf D => rintro _ v o hv hd rfl; exact ⟨hd, hR _ hv⟩
  | list c S ih =>
    rintro hS v o hv ⟨h1, h2⟩ ⟨ws, h5, h6⟩
    obtain ⟨hel, -, -⟩ := hS.2.2 v hv h1
    have ho : W.typeOf o = W.typeOf v ∧ W.elems o = ws := by
      rcases h6 with ⟨e, rfl⟩ | ⟨-, e1, e2⟩
      · exact ⟨rfl, e.symm⟩
      · exact ⟨e2, e1⟩
    refine ⟨h1, ho.1.symm, ?_⟩
    rw [ho.2]
    exact along_swap h5 fun a b ha hr => ih hS.2.1 a b (hel a ha) (h2 a ha) hr
  | either S T ihS ihT =>
    rintro hS v o hv - (⟨hd, hr⟩ | ⟨hd, hr⟩)
    · exact .inl (ihS hS.1 v o hv hd hr)
    · exact .inr (ihT hS.2.1 v o hv hd hr)
  | record c ks ih =>
    rintro hS v o hv hdoc (⟨hi, rfl⟩ | ⟨hi, m, j, hvm, ho, hjc, hjk, hjm, hjd⟩)
    · exact .inl ⟨hi, hR _ hv⟩
    · rcases hdoc with hi' | ⟨m', hvm', hdk, hdr, hdv⟩
      · rw [hi] at hi'; cases hi'
      · have e : m' = m := by
          have := (hvm' s).symm.trans (hvm s)
          injection this with e _
          injection e
        subst e
        have hC := hS.1.creatable
        have hfull : Full (cls c) j := fun k hk => hjk.mem_iff.2 hk
        obtain ⟨d, hd, -, hmd, -⟩ := C75_to_dict (E := E) hC hfull (o := { whitelist := m'.map (·.1) }) (black := []) rfl s
        refine .inr ⟨hi, j, _, [], d, m', s, s, ho, hjc, hfull, rfl, fun _ _ _ _ _ _ => .inr fun _ _ => (nomatch ·), hd, hvm, fun k => ?_,
          fun k w y hkw hky => ?_⟩
        · constructor
          · intro hk
            obtain ⟨⟨k', f⟩, hkf, e⟩ := List.mem_map.1 (hdk k hk)
            simp only at e
            subst e
            obtain ⟨⟨k2, w⟩, hkw, e⟩ := List.mem_map.1 hk
            simp only at e
            subst e
            obtain ⟨x, hx, -⟩ := hjm k2 w hkw
            have hname : f.name = k2 := hC.wf.named k2 f (Dict.mem_get? _ hC.wf.nodup _ _ hkf)
            exact List.mem_map.2 ⟨(k2, x), (hmd k2 x).2 ⟨f, hkf, hx, .inl (hname ▸ hk)⟩, rfl⟩
          · intro hk
            obtain ⟨⟨k', y⟩, hky, e⟩ := List.mem_map.1 hk
            simp only at e
            subst e
            refine Classical.byContradiction fun hn => ?_
            obtain ⟨f, hkf, hy, hex⟩ := (hmd k' y).1 hky
            obtain ⟨dv, hdv, hyd⟩ := hjd k' f hkf hn
            have e : dv = y := by rw [hy] at hyd; injection hyd with e; exact e.symm
            subst e
            have hname : f.name = k' := hC.wf.named k' f (Dict.mem_get? _ hC.wf.nodup _ _ hkf)
            rcases hex with hw | ⟨-, hw | hw⟩
            · exact hn (hname ▸ hw)
            · cases hw
            · exact hw ⟨dv, hdv, hE dv⟩
        · obtain ⟨x, hx, hr⟩ := hjm k w hkw
          obtain ⟨f, hkf, hy, -⟩ := (hmd k y).1 hky
          have e : x = y := by rw [hy] at hx; injection hx with e; exact e.symm
          subst e
          exact ih k (hS.2.2.2.1 k f hkf).2.2 w x (entries_in hU hv hvm s hkw) (hdv k w hkw) hr

end ArchiveLemmas

open ArchiveLemmas

/-- **C126**: a class called with a deep export of one of its records returns a record that is a tree of the same shape with equal leaves: it is
equal to the original (C122). -/
theorem C126_document (hU : Documents E U) {n : Nat} (hK : Constructs E cls h U (n + 2)) {c : W.Cls}
    {ks : String → Schema W} (hS : (Schema.record c ks).OK E cls U) (hL : (Schema.record c ks).ListKinds cls h)
    (hT : (Schema.record c ks).TreeDefaults cls h) {x v : W.Obj} (hv : U v)
    (hi : W.isInstance v c = false) (hx : (Schema.record c ks).Flat E cls h x v) (m : Nat) (s : LState W) :
    ∃ i s', callN E (cls c) (m + 2) (some v) [] s = (.ok (.new i), s') ∧ ∀ o, h o = .record i → SameTree cls h x o := by
  obtain ⟨i, s', h1, h2⟩ := (C124_document hU hK hS hv hi m s).1 (flat_doc _ hS x v hx)
  exact ⟨i, s', h1, fun o ho => flat_read hU _ hS hL hT x v o hv hx (h2 o ho)⟩

/-- **C126**, its entries given as keyword arguments. -/
theorem C126_keywords (hU : Documents E U) {n : Nat} (hK : Constructs E cls h U (n + 2)) {c : W.Cls}
    {ks : String → Schema W} (hS : (Schema.record c ks).OK E cls U) (hL : (Schema.record c ks).ListKinds cls h)
    (hT : (Schema.record c ks).TreeDefaults cls h) {x v : W.Obj} (hv : U v)
    (hi : W.isInstance v c = false) (hx : (Schema.record c ks).Flat E cls h x v) {d : Dict W.Obj} (hd : ∀ s, E.chainView v s = (.ok d, s))
    (m : Nat) (s : LState W) :
    ∃ i s', callN E (cls c) (m + 1) none d s = (.ok (.new i), s') ∧ ∀ o, h o = .record i → SameTree cls h x o := by
  obtain ⟨i, s', h1, h2⟩ := (C124_keywords hU hK hS hv hi hd m s).1 (flat_doc _ hS x v hx)
  exact ⟨i, s', h1, fun o ho => flat_read hU _ hS hL hT x v o hv hx (h2 o ho)⟩

/-- **C126**, `from_json` with a text that `json.loads` reads as the export. -/
theorem C126_json (hU : Documents E U) {n : Nat} (hK : Constructs E cls h U (n + 2)) {c : W.Cls}
    {ks : String → Schema W} (hS : (Schema.record c ks).OK E cls U) (hL : (Schema.record c ks).ListKinds cls h)
    (hT : (Schema.record c ks).TreeDefaults cls h) {x v : W.Obj} (hv : U v)
    (hi : W.isInstance v c = false) (hx : (Schema.record c ks).Flat E cls h x v) {d : Dict W.Obj} (hd : ∀ s, E.chainView v s = (.ok d, s))
    {t : W.Obj} {s s1 s2 : LState W} (ht : E.jsonLoads t [] s = (.ok v, s1)) (hs : E.starView v s1 = (.ok d, s2)) (m : Nat) :
    ∃ i s', fromJson E (fun m' => callN E (cls c) (m + 1) none m') Sel.empty t [] s = (.ok (.new i), s') ∧
      ∀ o, h o = .record i → SameTree cls h x o := by
  obtain ⟨i, s', h1, h2⟩ := C126_keywords hU hK hS hL hT hv hi hx hd m s2
  refine ⟨i, s', ?_, h2⟩
  have := C57_json_parser (C := cls c) (call := fun m' => callN E (cls c) (m + 1) none m') ht hs
  exact this.trans h1

/-- **C126**, the other way round: a document is a deep export of the record that is made from it (for suitable whitelists): reading loses
nothing. -/
theorem C126_back (hU : Documents E U) (hE : ∀ d, W.eq d d = true) (hR : ∀ v, U v → SameTree cls h v v) {n : Nat}
    (hK : Constructs E cls h U (n + 2)) {c : W.Cls} {ks : String → Schema W} (hS : (Schema.record c ks).OK E cls U) {v : W.Obj} (hv : U v)
    (hi : W.isInstance v c = false) (hd : (Schema.record c ks).Doc E cls v) (m : Nat) (s : LState W) :
    ∃ i s', callN E (cls c) (m + 2) (some v) [] s = (.ok (.new i), s') ∧ ∀ o, h o = .record i → (Schema.record c ks).Flat E cls h o v := by
  obtain ⟨i, s', h1, h2⟩ := (C124_document hU hK hS hv hi m s).1 hd
  exact ⟨i, s', h1, fun o ho => read_flat hU hE hR s _ hS v o hv hd (h2 o ho)⟩

end Records

namespace Records.Toy.Doc

/-- the records and lists among the objects -/
def heap' (v : TObj) : Node DW := if typeOf v = .list then .list (DW.elems v) else heap v

theorem heap'_record {o : TObj} {i : Inst DW} (ho : heap o = .record i) : heap' o = .record i := by
  unfold heap'
  rw [if_neg]
  · exact ho
  · cases o
    case map c l =>
      cases c
      case record n => intro h; cases h
      all_goals cases ho
    all_goals cases ho

theorem constructs' : Constructs env cls heap' U 2 := by
  intro c v s hc hv hi
  have h := constructs c v s hc hv hi
  generalize callN env (cls c) 2 (some v) [] s = r at h ⊢
  rcases r with ⟨r, s'⟩
  rcases r with e | r
  · exact h
  · cases r with
    | new i =>
      obtain ⟨o, h1, h2, h3⟩ := h
      exact ⟨o, h1, heap'_record h2, h3⟩
    | old o => exact h

theorem listsP : sP.ListKinds cls heap' := fun _ _ => trivial

theorem listsQ : sQ.ListKinds cls heap' := by
  intro k _
  show (if k = "p" then sP else if k = "q" then .list TCls.list sP else .either ints strs : Schema DW).ListKinds cls heap'
  split
  · exact listsP
  · split
    · refine ⟨fun (o : TObj) ho => ?_, listsP⟩
      have ho : isSub (typeOf o) .list = true := ho
      have ho : typeOf o = .list := by
        revert ho
        cases typeOf o
        case record n => exact fun h => absurd h (by simp [isSub])
        all_goals decide
      unfold heap'
      rw [if_pos ho]
    · exact ⟨trivial, trivial⟩

theorem leaf_same (a b : TObj) (ha : heap' a = .atom) (hb : heap' b = .atom) (h : eq a b = true) : SameTree (W := DW) cls heap' a b := .leaf ha hb h

theorem p_same (a b : TObj) (ha : heap' a = .atom) (hb : heap' b = .atom) (h1 : eq a a = true) (h2 : eq b b = true) :
    SameTree (W := DW) cls heap' (pObj a b) (pObj a b) := by
  refine .record (i := { cid := TCls.record 20, dict := [("x", a), ("y", b)], hash := none })
    (j := { cid := TCls.record 20, dict := [("x", a), ("y", b)], hash := none }) rfl rfl rfl ?_
  intro k x y hk hx hy
  have hk : k ∈ ["x", "y"] := hk
  rw [hx] at hy
  injection hy with e
  subst e
  rcases List.mem_cons.1 hk with rfl | hk
  · have hx : some a = some x := hx
    injection hx with e
    subst e
    exact leaf_same _ _ ha ha h1
  · rcases List.mem_cons.1 hk with rfl | hk
    · have hx : some b = some x := hx
      injection hx with e
      subst e
      exact leaf_same _ _ hb hb h2
    · cases hk

/-- `{"x": 1, "y": 2}` is an export of `P(1, 2)` -/
theorem flatP : sP.Flat env cls heap' (pObj (.int 1) (.int 2)) (xy (.int 1) (.int 2)) := by
  refine .inr ⟨by decide, { cid := TCls.record 20, dict := [("x", .int 1), ("y", .int 2)], hash := none }, {}, [],
    [("x", .int 1), ("y", .int 2)], [("x", .int 1), ("y", .int 2)], ⟨([] : List Nat), fun _ => []⟩, ⟨([] : List Nat), fun _ => []⟩, rfl, rfl,
    by unfold Full; decide, rfl, ?_, rfl, fun _ => rfl, fun _ => .rfl, ?_⟩
  · exact fun _ _ _ _ _ _ => .inr fun _ _ => (nomatch ·)
  · intro k w y hw hy
    rcases List.mem_cons.1 hw with e | hw
    · cases e
      rcases List.mem_cons.1 hy with e | hy
      · cases e
        exact ⟨rfl, leaf_same _ _ rfl rfl rfl⟩
      · rcases List.mem_cons.1 hy with e | hy
        · injection e with e _
          exact absurd e (by decide)
        · cases hy
    · rcases List.mem_cons.1 hw with e | hw
      · cases e
        rcases List.mem_cons.1 hy with e | hy
        · injection e with e _
          exact absurd e (by decide)
        · rcases List.mem_cons.1 hy with e | hy
          · cases e
            exact ⟨rfl, leaf_same _ _ rfl rfl rfl⟩
          · cases hy
      · cases hw

/-- `{"p": {"x": 1, "y": 2}, "q": [{"x": 1, "y": 2}, P(3, 4)]}` is an export of `Q(p=P(1, 2), q=[P(1, 2), P(3, 4)], z=7)` -/
theorem flatQ : sQ.Flat env cls heap' (qObj (pObj (.int 1) (.int 2)) l2 (.int 7)) (pq (xy (.int 1) (.int 2)) l1) := by
  refine .inr ⟨by decide, { cid := TCls.record 21, dict := [("p", pObj (.int 1) (.int 2)), ("q", l2), ("z", .int 7)], hash := none }, {}, [],
    [("p", pObj (.int 1) (.int 2)), ("q", l2)], [("p", xy (.int 1) (.int 2)), ("q", l1)], ⟨([] : List Nat), fun _ => []⟩,
    ⟨([] : List Nat), fun _ => []⟩, rfl, rfl, by unfold Full; decide, rfl, ?_, rfl, fun _ => rfl, fun _ => .rfl, ?_⟩
  · exact fun _ _ _ _ _ _ => .inr fun _ _ => (nomatch ·)
  · intro k w y hw hy
    rcases List.mem_cons.1 hw with e | hw
    · cases e
      rcases List.mem_cons.1 hy with e | hy
      · cases e
        exact flatP
      · rcases List.mem_cons.1 hy with e | hy
        · injection e with e _
          exact absurd e (by decide)
        · cases hy
    · rcases List.mem_cons.1 hw with e | hw
      · cases e
        rcases List.mem_cons.1 hy with e | hy
        · injection e with e _
          exact absurd e (by decide)
        · rcases List.mem_cons.1 hy with e | hy
          · cases e
            exact ⟨rfl, rfl, flatP, .inl ⟨rfl, p_same _ _ rfl rfl rfl rfl⟩, trivial⟩
          · cases hy
      · cases hw

theorem seven (y : TObj) (h : eq (.int 7) y = true) : SameTree (W := DW) cls heap' y (TObj.int 7) := by
  have h0 : heap' y = .atom ∧ eq y (.int 7) = true := by
    cases y
    case int i => exact ⟨rfl, by simp [eq, num] at h ⊢; exact h.symm⟩
    case myInt i => exact ⟨rfl, by simp [eq, num] at h ⊢; exact h.symm⟩
    case bool b => cases b <;> exact absurd h (by decide)
    all_goals simp [eq, num] at h
  exact leaf_same _ _ h0.1 rfl h0.2

theorem defaultsP : sP.TreeDefaults cls heap' := by
  intro k f hkf
  rcases List.mem_cons.1 hkf with e | hkf
  · cases e; exact ⟨nofun, trivial⟩
  · rcases List.mem_cons.1 hkf with e | hkf
    · cases e; exact ⟨nofun, trivial⟩
    · cases hkf

theorem defaultsQ : sQ.TreeDefaults cls heap' := by
  intro k f hkf
  rcases List.mem_cons.1 hkf with e | hkf
  · cases e; exact ⟨nofun, defaultsP⟩
  · rcases List.mem_cons.1 hkf with e | hkf
    · cases e; exact ⟨nofun, defaultsP⟩
    · rcases List.mem_cons.1 hkf with e | hkf
      · cases e
        refine ⟨fun d y hd hy => ?_, trivial, trivial⟩
        cases hd
        exact seven y hy
      · cases hkf

example (s : LState DW) := C126_document documents constructs' okQ listsQ defaultsQ (by unfold U; decide) (by decide) flatQ 0 s
example (s : LState DW) := C126_keywords documents constructs' okQ listsQ defaultsQ (by unfold U; decide) (by decide) flatQ (fun _ => rfl) 0 s

example (s : LState DW) := C126_json documents constructs' okQ listsQ defaultsQ (v := pq (xy (.int 1) (.int 2)) l1) (by unfold U; decide) (by decide)
  flatQ (fun _ => rfl) (t := TObj.str "t") (s := s) rfl rfl 0

theorem eq_same (a : TObj) : eq a a = true := by
  unfold eq
  cases num a <;> simp

theorem seq_same {xs : List TObj} {a : TObj} (ha : heap' a = .list xs) (h : ∀ x ∈ xs, SameTree (W := DW) cls heap' x x) :
    SameTree (W := DW) cls heap' a a :=
  .list ha ha rfl fun n x y hx hy => by
    rw [hx] at hy
    injection hy with e
    subst e
    exact h x (List.mem_of_getElem? hx)

theorem same (v : TObj) (hv : U v) : SameTree (W := DW) cls heap' v v := by
  have h34 : SameTree (W := DW) cls heap' (pObj (.int 3) (.int 4)) (pObj (.int 3) (.int 4)) := p_same _ _ rfl rfl rfl rfl
  have h12 : SameTree (W := DW) cls heap' (xy (.int 1) (.int 2)) (xy (.int 1) (.int 2)) := leaf_same _ _ rfl rfl (eq_same _)
  rcases U_cases v hv with rfl | rfl | rfl | rfl | rfl | rfl | rfl | rfl | rfl | rfl | rfl
  all_goals first
    | exact leaf_same _ _ rfl rfl (eq_same _)
    | exact h34
    | exact seq_same (xs := [xy (.int 1) (.int 2), pObj (.int 3) (.int 4)]) rfl (by
        intro x hx
        rcases List.mem_cons.1 hx with rfl | hx
        · exact h12
        · rcases List.mem_cons.1 hx with rfl | hx
          · exact h34
          · cases hx)
    | exact seq_same (xs := [pObj (.int 3) (.int 4)]) rfl (by
        intro x hx
        rcases List.mem_cons.1 hx with rfl | hx
        · exact h34
        · cases hx)

example (s : LState DW) := C126_back documents eq_same same constructs' okQ (by unfold U; decide) (by decide) doc1 0 s

/-- `class P'(RecordBase, default_type_check=check): x: int; y: int`, as `P` -/
def spP' : ClassSpec DW := { spP with cid := TCls.record 23 }
/-- `class R(RecordBase, default_type_check=check): p: Union[Annotated[P, Loose], Annotated[P', Loose]]; q: int` -/
def spR : ClassSpec DW :=
  { cid := TCls.record 24, style := .check,
    anns := [("p", .plain (.union [.annotated (.cls (TCls.record 20)) [looseToken], .annotated (.cls (TCls.record 23)) [looseToken]])),
      ("q", .plain (.cls TCls.int))] }
def P' : RecClass DW := clsOf spP'
def R : RecClass DW := clsOf spR
def cls' (c : TCls) : RecClass DW := if c = .record 20 then P else if c = .record 23 then P' else R

theorem P'_creatable : Creatable P' := .intro spP' P' ⟨by decide, by decide, nofun⟩ nofun rfl
theorem R_creatable : Creatable R := .intro spR R ⟨by decide, by decide, nofun⟩ nofun rfl

theorem R_readable : Readable R := ⟨R_creatable, fun _ _ => rfl, by unfold FreeNames; decide, rfl, by decide, rfl⟩

/-- the fields of `R` -/
def sR : Schema DW := .record (TCls.record 24) fun k => if k = "p" then .either sP (.record (TCls.record 23) fun _ => ints) else ints

/-- `{"x": 1, "y": 2}` is an export of `P(1, 2)` -/
theorem flatP' : sP.Flat env cls' heap' (pObj (.int 1) (.int 2)) (xy (.int 1) (.int 2)) := by
  refine .inr ⟨by decide, { cid := TCls.record 20, dict := [("x", .int 1), ("y", .int 2)], hash := none }, {}, [],
    [("x", .int 1), ("y", .int 2)], [("x", .int 1), ("y", .int 2)], ⟨([] : List Nat), fun _ => []⟩, ⟨([] : List Nat), fun _ => []⟩, rfl, rfl,
    by unfold Full; decide, rfl, ?_, rfl, fun _ => rfl, fun _ => .rfl, ?_⟩
  · exact fun _ _ _ _ _ _ => .inr fun _ _ => (nomatch ·)
  · intro k w y hw hy
    rcases List.mem_cons.1 hw with e | hw
    · cases e
      rcases List.mem_cons.1 hy with e | hy
      · cases e
        exact ⟨rfl, .leaf rfl rfl rfl⟩
      · rcases List.mem_cons.1 hy with e | hy
        · injection e with e _
          exact absurd e (by decide)
        · cases hy
    · rcases List.mem_cons.1 hw with e | hw
      · cases e
        rcases List.mem_cons.1 hy with e | hy
        · injection e with e _
          exact absurd e (by decide)
        · rcases List.mem_cons.1 hy with e | hy
          · cases e
            exact ⟨rfl, .leaf rfl rfl rfl⟩
          · cases hy
      · cases hw

/-- `{"p": {"x": 1, "y": 2}, "q": 2}` is an export of `R(p=P(1, 2), q=2)` -/
theorem flatR : sR.Flat env cls' heap' (inst 24 [("p", pObj (.int 1) (.int 2)), ("q", .int 2)]) (pq (xy (.int 1) (.int 2)) (.int 2)) := by
  refine .inr ⟨by decide, { cid := TCls.record 24, dict := [("p", pObj (.int 1) (.int 2)), ("q", .int 2)], hash := none }, {}, [],
    [("p", pObj (.int 1) (.int 2)), ("q", .int 2)], [("p", xy (.int 1) (.int 2)), ("q", .int 2)], ⟨([] : List Nat), fun _ => []⟩,
    ⟨([] : List Nat), fun _ => []⟩, rfl, rfl, by unfold Full; decide, rfl, ?_, rfl, fun _ => rfl, fun _ => .rfl, ?_⟩
  · exact fun _ _ _ _ _ _ => .inr fun _ _ => (nomatch ·)
  · intro k w y hw hy
    rcases List.mem_cons.1 hw with e | hw
    · cases e
      rcases List.mem_cons.1 hy with e | hy
      · cases e
        exact .inl flatP'
      · rcases List.mem_cons.1 hy with e | hy
        · injection e with e _
          exact absurd e (by decide)
        · cases hy
    · rcases List.mem_cons.1 hw with e | hw
      · cases e
        rcases List.mem_cons.1 hy with e | hy
        · injection e with e _
          exact absurd e (by decide)
        · rcases List.mem_cons.1 hy with e | hy
          · cases e
            exact ⟨rfl, .leaf rfl rfl rfl⟩
          · cases hy
      · cases hw

theorem fillsR : ∀ k f, (k, f) ∈ R.fields → (if k = "p" then Schema.either sP (.record (TCls.record 23) fun _ => ints) else ints).Fills f.filler := by
  intro k f hkf
  rcases List.mem_cons.1 hkf with e | hkf
  · cases e
    exact ⟨.annotated (.cls (TCls.record 20)) [looseToken], .annotated (.cls (TCls.record 23)) [looseToken], _, _, rfl, rfl, rfl, rfl,
      ⟨_, rfl, rfl⟩, ⟨_, rfl, rfl⟩⟩
  · rcases List.mem_cons.1 hkf with e | hkf
    · cases e
      exact C124_leaf (b := _) rfl (by decide)
    · cases hkf

end Records.Toy.Doc

namespace Records

/-- **C126**, "a deep export can be read back" is refuted for a union of two classes with the same fields: the class accepts the record itself
as the value of the field, but refuses the mapping that stands for it. -/
theorem C126_refuted_union : ∃ (W : World) (E : Env W) (cls : W.Cls → RecClass W) (h : W.Obj → Node W) (c : W.Cls) (ks : String → Schema W)
    (x v : W.Obj) (i : Inst W) (s : LState W), Readable (cls c) ∧ (∀ k f, (k, f) ∈ (cls c).fields → (ks k).Fills f.filler) ∧
    h x = .record i ∧ (Schema.record c ks).Flat E cls h x v ∧ W.isInstance v c = false ∧
    callN E (cls c) 1 none i.dict s = (.ok (.new i), s) ∧ callN E (cls c) 2 (some v) [] s = (.error .parseFailure, s) :=
  ⟨Toy.Doc.DW, Toy.Doc.env, Toy.Doc.cls', Toy.Doc.heap', Toy.TCls.record 24, _, _, _,
    ⟨Toy.TCls.record 24, [("p", Toy.Doc.pObj (.int 1) (.int 2)), ("q", Toy.TObj.int 2)], none⟩, ⟨([] : List Nat), fun _ => []⟩,
    Toy.Doc.R_readable, Toy.Doc.fillsR, rfl, Toy.Doc.flatR, by decide, rfl, rfl⟩

end Records

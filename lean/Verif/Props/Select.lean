import Verif.Proofs.SelectMore
/-
Properties C01 - C07: `Select`.
-/
namespace Records
open Spec
variable {V : Type}

/-! ## C01 -/

/-- **C01.** Calling a Select (built from any re-iterable arguments) on any mapping object does what the script of
single edits does on the abstract mapping: same exception, or a result that is the same partial function
(and again has distinct keys). -/
theorem C01_select_refines_script (a : SelectArgs V) (ha : Reiterable a) (h : Heap V) (hh : h.WF) (m : MObj)
    (hv : m.Valid h) :
    match runScript (argEdits a).script (Dict.get? (m.items h)) with
    | .error k => (a.mk'.call h m).outcome = .error ⟨k, none⟩
    | .ok g => ∃ d, (a.mk'.call h m).outcome = .ok d ∧ d.WF ∧ ∀ k, d.get? k = g k := by
  have := call_sim a.mk' (mk'_pure ha) h hh m hv
  rwa [mk'_edits ha] at this

/-- **C01**, empty Select: the very same mapping object is returned and nothing is touched. -/
theorem C01_empty_select_is_identity (a : SelectArgs V) (ha : Reiterable a) (he : (argEdits a).script = [])
    (h : Heap V) (m : MObj) :
    (a.mk'.call h m).ret = .ok m ∧ (a.mk'.call h m).heap = h := by
  have := call_pure a.mk' (mk'_pure ha) h m
  rw [mk'_edits ha, (isEmpty_iff_script _).2 he] at this
  simpa using this

/-- a Select with all six kinds of entries, used in the examples -/
def exArgs : SelectArgs Nat where
  add := .mapping [("n", 7)]
  maybeAdd := .iterable (.many [("n", 8), ("q", 9), ("q", 10)])
  remove := .str "a"
  maybeRemove := .iterable (.many ["zz", "b"])
  rename := .mapping [("c", "a"), ("a", "e")]
  maybeRename := .mapping [("zz", "n"), ("d", "b")]

def exHeap : Heap Nat := [[("a", 1), ("b", 2), ("c", 3), ("d", 4)], [("d", 5), ("k", 6)]]

/-- the hypotheses of C01 are met by a Select using all six lists, with repeated and chained keys, on a ChainMap -/
example : Reiterable exArgs ∧ exHeap.WF ∧ (MObj.chain [1, 0]).Valid exHeap := by
  refine ⟨by simp [Reiterable, exArgs, pairReiterable, keyReiterable], ?_, ?_⟩
  · intro d hd; simp [exHeap] at hd; rcases hd with rfl | rfl <;> simp [Dict.WF]
  · intro a ha; simp at ha; rcases ha with rfl | rfl <;> simp [exHeap]

example : (exArgs.mk'.call exHeap (.chain [1, 0])).outcome =
    .ok [("k", 6), ("e", 3), ("b", 5), ("n", 7), ("q", 9)] := by rfl

/-! ## C02 -/

/-- entries of a mapping that survive the removal lists -/
def survivors (e : Edits V) (d : Dict V) : Dict V := d.filter fun kv => kv.1 ∉ e.remove ∧ kv.1 ∉ e.maybeRemove

/-- **C02.** If applying a Select succeeds with result `d` then
* the entries whose key is mentioned nowhere are the same, with the same values and in the same order;
* `d` is the result `d0` of the Select without its maybe-adds, followed by exactly the maybe-adds whose key was new;
* the values of `d0` are, up to order, those of the entries not removed plus the added ones (so renames neither lose
  nor duplicate nor change a value). -/
theorem C02_no_silent_loss (a : SelectArgs V) (ha : Reiterable a) (h : Heap V) (hh : h.WF) (m : MObj)
    (hv : m.Valid h) (d : Dict V) (hd : (a.mk'.call h m).outcome = .ok d) :
    (d.filter (fun kv => kv.1 ∉ (argEdits a).mentioned) =
      (m.items h).filter (fun kv => kv.1 ∉ (argEdits a).mentioned)) ∧
    ∃ d0, (Sel.call (SelectArgs.mk' { a with maybeAdd := .iterable (.many []) }) h m).outcome = .ok d0 ∧
      d = d0 ++ firstNew d0.keys (argEdits a).maybeAdd ∧
      d0.values.Perm ((survivors (argEdits a) (m.items h)).values ++ Dict.values (argEdits a).add) := by
  have hr : Reiterable { a with maybeAdd := .iterable (.many []) } := by
    obtain ⟨h1, _, h3, h4, h5, h6⟩ := ha
    exact ⟨h1, trivial, h3, h4, h5, h6⟩
  have hwf := items_wf hh m
  -- outcome in terms of the script
  have out : ∀ b : SelectArgs V, Reiterable b → (b.mk'.call h m).outcome =
      match (scriptLoop (argEdits b).script (m.items h)).2 with
        | some e => .error e
        | none => .ok (scriptLoop (argEdits b).script (m.items h)).1 := by
    intro b hb
    rw [call_outcome b.mk' (mk'_pure hb) h m hv, mk'_edits hb]
    have := edit_script b.mk'.truth.2 (m.items h)
    rw [(truth_pure _ (mk'_pure hb)).2.2, mk'_edits hb] at this
    rw [← this]
    cases hE : (argEdits b).isEmpty with
    | false =>
      simp only [Bool.false_eq_true, if_false]
      cases (Sel.edit b.mk'.truth.2 (m.items h)).err <;> rfl
    | true =>
      rw [isEmpty_script hE] at this
      simp only [scriptLoop, Prod.mk.injEq] at this
      simp [this.1, this.2]
  rw [out a ha] at hd
  cases hs : (scriptLoop (argEdits a).script (m.items h)).2 with
  | some e => rw [hs] at hd; cases hd
  | none =>
    rw [hs] at hd
    simp only [Except.ok.injEq] at hd
    subst hd
    refine ⟨(loop_unmentioned _ _ (mentioned_script _) _ hwf).2, ?_⟩
    obtain ⟨d0, e1, e2, e3, _, _⟩ := script_count (argEdits a) (m.items h) hwf hs
    refine ⟨d0, ?_, e2, e3⟩
    rw [out _ hr]
    have : (argEdits { a with maybeAdd := .iterable (.many []) }) = { argEdits a with maybeAdd := [] } := rfl
    rw [this, e1]

theorem filter_count (l : List String) (hl : l.Nodup) (d : Dict V) (hd : d.WF) (h : ∀ k ∈ l, k ∈ d.keys) :
    (d.filter fun kv => kv.1 ∉ l).length + l.length = d.length := by
  induction l generalizing d with
  | nil => simp
  | cons x l ih =>
    rw [List.nodup_cons] at hl
    have h1 := ih hl.2 (d.erase x) (hd.erase x) (by
      intro k hk
      exact (Dict.mem_keys_erase _ hd _ _).2 ⟨fun e => hl.1 (e ▸ hk), h k (by simp [hk])⟩)
    have hx : x ∈ d.keys := h x (by simp)
    have h2 : (d.erase x).length + 1 = d.length := by
      clear ih h h1 hd
      induction d with
      | nil => simp at hx
      | cons kv d ih =>
        simp only [Dict.erase]
        by_cases hk : kv.1 = x
        · simp [hk]
        · simp only [hk, if_false, List.length_cons]
          rw [ih (by simpa [show ¬ x = kv.1 from fun e => hk (Eq.symm e)] using hx)]
    rw [Dict.erase_eq_filter _ hd, List.filter_filter] at h1
    have h3 : (fun kv : String × V => decide (kv.1 ∉ l) && decide (kv.1 ≠ x)) = (fun kv => decide (kv.1 ∉ x :: l)) := by
      funext kv; simp [Bool.and_comm]
    rw [h3, ← Dict.erase_eq_filter _ hd] at h1
    simp only [List.length_cons]
    omega

/-- **C02**, counting: on success the number of entries is exactly
input − removes − performed maybe-removes + adds + performed maybe-adds. -/
theorem C02_count (a : SelectArgs V) (ha : Reiterable a) (h : Heap V) (hh : h.WF) (m : MObj)
    (hv : m.Valid h) (d : Dict V) (hd : (a.mk'.call h m).outcome = .ok d) :
    ∃ d0, (Sel.call (SelectArgs.mk' { a with maybeAdd := .iterable (.many []) }) h m).outcome = .ok d0 ∧
    d.length + (argEdits a).remove.length
      + ((m.items h).filter (fun kv => kv.1 ∉ (argEdits a).remove ∧ kv.1 ∈ (argEdits a).maybeRemove)).length
    = (m.items h).length + (argEdits a).add.length + (firstNew d0.keys (argEdits a).maybeAdd).length := by
  obtain ⟨_, d0, e1, e2, e3⟩ := C02_no_silent_loss a ha h hh m hv d hd
  refine ⟨d0, e1, ?_⟩
  have hwf := items_wf hh m
  have hs : (scriptLoop (argEdits a).script (m.items h)).2 = none := by
    rw [call_outcome a.mk' (mk'_pure ha) h m hv, mk'_edits ha] at hd
    have := edit_script a.mk'.truth.2 (m.items h)
    rw [(truth_pure _ (mk'_pure ha)).2.2, mk'_edits ha] at this
    rw [← this]
    cases hE : (argEdits a).isEmpty with
    | false =>
      rw [hE] at hd
      simp only [Bool.false_eq_true, if_false] at hd
      cases hx : (Sel.edit a.mk'.truth.2 (m.items h)).err with
      | none => rfl
      | some e => rw [hx] at hd; cases hd
    | true =>
      rw [isEmpty_script hE] at this
      simp only [scriptLoop, Prod.mk.injEq] at this
      exact this.2
  obtain ⟨_, _, _, _, hn, hk⟩ := script_count (argEdits a) (m.items h) hwf hs
  have c1 := filter_count _ hn (m.items h) hwf hk
  have c2 := e3.length_eq
  simp only [Dict.values, List.length_map, List.length_append, survivors] at c2
  have c3 : ((m.items h).filter fun kv => kv.1 ∉ (argEdits a).remove).length =
      ((m.items h).filter fun kv => kv.1 ∉ (argEdits a).remove ∧ kv.1 ∉ (argEdits a).maybeRemove).length +
      ((m.items h).filter fun kv => kv.1 ∉ (argEdits a).remove ∧ kv.1 ∈ (argEdits a).maybeRemove).length := by
    generalize m.items h = l
    induction l with
    | nil => rfl
    | cons x l ih =>
      simp only [List.filter_cons]
      by_cases hx : x.1 ∈ (argEdits a).remove <;> by_cases hy : x.1 ∈ (argEdits a).maybeRemove <;>
        simp only [hx, hy, not_true, not_false_iff, and_true, and_false, decide_true, decide_false, if_true,
          Bool.false_eq_true, if_false, List.length_cons] <;> omega
  rw [e2, List.length_append]
  omega

/-- the hypotheses of C02 are met (see the C01 example): 5 + 1 + 1 = 5 + 1 + 1 -/
example : (exArgs.mk'.call exHeap (.chain [1, 0])).outcome =
    .ok [("k", 6), ("e", 3), ("b", 5), ("n", 7), ("q", 9)] ∧ ((MObj.chain [1, 0]).items exHeap).length = 5 := by
  exact ⟨rfl, rfl⟩

/-! ## C03 -/

/-- two Selects act alike: same returned object or exception, same effect on every dict, for every mapping -/
def ActAlike (s t : Sel V) : Prop :=
  ∀ (h : Heap V) (m : MObj), (s.call h m).ret = (t.call h m).ret ∧ (s.call h m).heap = (t.call h m).heap

/-- **C03.** Merging concatenates the six lists: the merge of a Select with any number of others acts like the one
Select built from the concatenated argument lists. -/
theorem C03_merge_concatenates (a : SelectArgs V) (ha : Reiterable a) (bs : List (SelectArgs V))
    (hb : ∀ b ∈ bs, Reiterable b) (kw : Option (SelectArgs V)) (hk : ∀ b ∈ kw, Reiterable b)
    (hne : ¬ (bs = [] ∧ kw = none)) :
    ∃ s, a.mk'.merge (bs.map SelectArgs.mk') (kw.map SelectArgs.mk') = .ok s ∧
      ActAlike s (mkSel ((bs ++ kw.toList).foldl (fun e b => e.append (argEdits b)) (argEdits a))) := by
  have hm : mergeArgs (bs.map SelectArgs.mk') (kw.map SelectArgs.mk') = (bs ++ kw.toList).map SelectArgs.mk' := by
    cases kw <;> simp [mergeArgs]
  have hall : ∀ b ∈ bs ++ kw.toList, Reiterable b := by
    intro b hb'
    rcases List.mem_append.1 hb' with h | h
    · exact hb b h
    · exact hk b (by simpa using h)
  have hne' : mergeArgs (bs.map SelectArgs.mk') (kw.map SelectArgs.mk') ≠ [] := by
    rw [hm]; intro h; apply hne
    simp at h; exact h
  refine ⟨_, merge_eq _ _ _ hne', ?_⟩
  rw [hm]
  have hp := foldl_merge1 ((bs ++ kw.toList).map SelectArgs.mk') (by
    intro o ho; obtain ⟨b, hb', rfl⟩ := List.mem_map.1 ho; exact mk'_pure (hall b hb')) a.mk' (mk'_pure ha)
  intro h m
  refine call_congr _ _ hp.1 (mkSel_pure _) ?_ h m
  rw [hp.2, mkSel_edits, mk'_edits ha]
  clear hp hne' hm hne hk hb ha
  generalize argEdits a = e
  generalize bs ++ kw.toList = l at hall
  induction l generalizing e with
  | nil => rfl
  | cons b l ih =>
    simp only [List.map_cons, List.foldl_cons]
    rw [mk'_edits (hall b (by simp))]
    exact ih _ (fun b hb => hall b (by simp [hb]))

/-- **C03**, associativity of merge. -/
theorem C03_merge_assoc (a b c : SelectArgs V) (ha : Reiterable a) (hb : Reiterable b) (hc : Reiterable c)
    (ab bc l r : Sel V) (h1 : a.mk'.merge [b.mk'] none = .ok ab) (h2 : ab.merge [c.mk'] none = .ok l)
    (h3 : b.mk'.merge [c.mk'] none = .ok bc) (h4 : a.mk'.merge [bc] none = .ok r) : ActAlike l r := by
  simp only [Sel.merge, List.foldl_cons, List.foldl_nil, Except.ok.injEq] at h1 h2 h3 h4
  subst h1 h3 h2 h4
  have m1 := merge1_pure _ _ (mk'_pure ha) (mk'_pure hb)
  have m2 := merge1_pure _ _ m1.1 (mk'_pure hc)
  have m3 := merge1_pure _ _ (mk'_pure hb) (mk'_pure hc)
  have m4 := merge1_pure _ _ (mk'_pure ha) m3.1
  intro h m
  refine call_congr _ _ m2.1 m4.1 ?_ h m
  rw [m2.2.1, m4.2.1, m1.2.1, m3.2.1, Edits.append_assoc]

/-- **C03**, identity: merging with an empty Select on either side changes nothing. -/
theorem C03_merge_empty (a : SelectArgs V) (ha : Reiterable a) :
    (∃ s, a.mk'.merge [Sel.empty] none = .ok s ∧ ActAlike s a.mk') ∧
    (∃ s, (Sel.empty : Sel V).merge [a.mk'] none = .ok s ∧ ActAlike s a.mk') := by
  have he : (Sel.empty : Sel V) = mkSel {} := rfl
  rw [he]
  refine ⟨⟨_, rfl, ?_⟩, ⟨_, rfl, ?_⟩⟩
  · have m1 := merge1_pure _ _ (mk'_pure ha) (mkSel_pure (V := V) {})
    intro h m
    exact call_congr _ _ m1.1 (mk'_pure ha) (by rw [m1.2.1, mkSel_edits]; exact Edits.append_empty_right rfl) h m
  · have m1 := merge1_pure _ _ (mkSel_pure (V := V) {}) (mk'_pure ha)
    intro h m
    exact call_congr _ _ m1.1 (mk'_pure ha) (by rw [m1.2.1, mkSel_edits]; exact Edits.append_empty_left rfl) h m

/-- **C03**: merge without arguments raises TypeError. -/
theorem C03_merge_no_args (s : Sel V) : s.merge [] none = .error .typeError := rfl

/-- `factory.select(*g1).select(*g2)...` -/
def selectChain : BoundFactory V → List (List (Sel V)) → Except Exc (BoundFactory V)
  | b, [] => .ok b
  | b, g :: gs => match b.select g none with
    | .error e => .error e
    | .ok b' => selectChain b' gs

/-- **C03**, chaining: any chain of (non-empty) select calls on a factory gives a factory with the same outcome, for
every wrapped function, as one select call with all the Selects, and as one call with their merge. -/
theorem C03_chain_eq_single (g0 : List (SelectArgs V)) (gs : List (List (SelectArgs V)))
    (hne : ∀ g ∈ g0 :: gs, g ≠ []) (hr : ∀ g ∈ g0 :: gs, ∀ a ∈ g, Reiterable a) :
    ∃ b1 b2 s b3, selectChain (BoundFactory.start (V := V)) ((g0 :: gs).map (·.map SelectArgs.mk')) = .ok b1 ∧
      BoundFactory.start.select ((g0 :: gs).flatten.map SelectArgs.mk') none = .ok b2 ∧
      (Sel.empty : Sel V).merge ((g0 :: gs).flatten.map SelectArgs.mk') none = .ok s ∧
      BoundFactory.start.select [s] none = .ok b3 ∧
      ∀ h func, b1.mapping h func = b2.mapping h func ∧ b1.mapping h func = b3.mapping h func := by
  have he : (Sel.empty : Sel V) = mkSel {} := rfl
  have key : ∀ (l : List (List (SelectArgs V))), (∀ g ∈ l, g ≠ []) → (∀ g ∈ l, ∀ a ∈ g, Reiterable a) →
      ∀ b : BoundFactory V, b.sel.Pure → ∃ b1, selectChain b (l.map (·.map SelectArgs.mk')) = .ok b1 ∧ b1.sel.Pure ∧
        b1.sel.edits = (l.flatten.map SelectArgs.mk').foldl (fun e o => e.append o.edits) b.sel.edits := by
    intro l
    induction l with
    | nil => intro _ _ b hb; exact ⟨b, rfl, hb, rfl⟩
    | cons g l ih =>
      intro h1 h2 b hb
      have hg : mergeArgs (g.map SelectArgs.mk') none ≠ [] := by
        simpa [mergeArgs] using h1 g (by simp)
      have hp := foldl_merge1 (g.map SelectArgs.mk') (by
        intro o ho; obtain ⟨a, ha, rfl⟩ := List.mem_map.1 ho; exact mk'_pure (h2 g (by simp) a ha)) b.sel hb
      obtain ⟨b1, e1, p1, q1⟩ := ih (fun g hg => h1 g (by simp [hg])) (fun g hg => h2 g (by simp [hg]))
        ⟨(mergeArgs (g.map SelectArgs.mk') none).foldl (fun r o => (r.merge1 o).1) b.sel⟩ (by simpa [mergeArgs] using hp.1)
      refine ⟨b1, ?_, p1, ?_⟩
      · simp only [List.map_cons, selectChain, BoundFactory.select, merge_eq _ _ _ hg, Except.map]
        exact e1
      · rw [q1]; simp only [mergeArgs, Option.toList_none, List.append_nil, hp.2]
        simp [List.foldl_append]
  obtain ⟨b1, e1, p1, q1⟩ := key (g0 :: gs) hne hr BoundFactory.start (mkSel_pure {})
  have hfl : (g0 :: gs).flatten ≠ [] := by
    have := hne g0 (by simp)
    simp [this]
  have hall : ∀ o ∈ (g0 :: gs).flatten.map SelectArgs.mk', o.Pure := by
    intro o ho
    obtain ⟨a, ha, rfl⟩ := List.mem_map.1 ho
    obtain ⟨g, hg, hag⟩ := List.mem_flatten.1 ha
    exact mk'_pure (hr g hg a hag)
  have hma : mergeArgs ((g0 :: gs).flatten.map SelectArgs.mk') none ≠ [] := by
    simpa [mergeArgs] using hfl
  have hp := foldl_merge1 _ hall (mkSel {}) (mkSel_pure (V := V) {})
  have hmerge := merge_eq (mkSel {}) _ none hma
  simp only [mergeArgs, Option.toList_none, List.append_nil] at hmerge
  have m1 := merge1_pure _ _ (mkSel_pure (V := V) {}) hp.1
  refine ⟨b1, ⟨List.foldl (fun r o => (r.merge1 o).1) (mkSel {}) ((g0 :: gs).flatten.map SelectArgs.mk')⟩, _,
    ⟨((mkSel {}).merge1 (List.foldl (fun r o => (r.merge1 o).1) (mkSel {})
      ((g0 :: gs).flatten.map SelectArgs.mk'))).1⟩, e1, ?_, by rw [he]; exact hmerge, ?_, ?_⟩
  · simp only [BoundFactory.select, BoundFactory.start, he, hmerge, Except.map]
  · rfl
  · intro h func
    have q2 : b1.sel.edits = (List.foldl (fun r o => (r.merge1 o).1) (mkSel {})
        ((g0 :: gs).flatten.map SelectArgs.mk')).edits := by rw [q1, hp.2]; rfl
    have c : ∀ t : Sel V, t.Pure → b1.sel.edits = t.edits → b1.mapping h func = BoundFactory.mapping ⟨t⟩ h func := by
      intro t ht hte
      unfold BoundFactory.mapping
      cases func h with
      | mk r h' =>
        cases r with
        | error e => rfl
        | ok m =>
          have := call_congr _ _ p1 ht hte h' m
          simp only [this.1, this.2]
    refine ⟨c _ hp.1 q2, c _ m1.1 ?_⟩
    rw [m1.2.1, q2, mkSel_edits]
    exact (Edits.append_empty_left rfl).symm

/-- three select calls with 2, 1 and 1 Selects meet the hypotheses, and the result is not an identity -/
example : (∀ g ∈ [[exArgs, {}], [{ remove := .str "q" }], [exArgs]], g ≠ []) ∧
    (∀ g ∈ [[exArgs, {}], [{ remove := .str "q" }], [exArgs]], ∀ a ∈ g, Reiterable a) := by
  refine ⟨by simp, ?_⟩
  intro g hg a ha
  simp only [List.mem_cons, List.not_mem_nil, or_false] at hg
  rcases hg with rfl | rfl | rfl <;> simp at ha
  · rcases ha with rfl | rfl <;> simp [Reiterable, exArgs, pairReiterable, keyReiterable]
  · subst ha; simp [Reiterable, pairReiterable, keyReiterable]
  · subst ha; simp [Reiterable, exArgs, pairReiterable, keyReiterable]

/-! ## C04 -/

/-- things one can do with a Select object -/
inductive SelUse (V : Type)
  | truth
  | mergeWith (other : Sel V)
  | mergeInto (other : Sel V)
  | apply (h : Heap V) (m : MObj)

/-- the Select object after a use -/
def Sel.after (s : Sel V) : SelUse V → Sel V
  | .truth => s.truth.2
  | .mergeWith o => (s.merge1 o).2.1
  | .mergeInto o => (o.merge1 s).2.2
  | .apply h m => (s.call h m).sel

/-- the other Selects in a use were also built from re-iterable arguments -/
def SelUse.ok : SelUse V → Prop
  | .mergeWith o | .mergeInto o => ∃ a, Reiterable a ∧ o = a.mk'
  | _ => True

theorem after_pure (s : Sel V) (hs : s.Pure) (u : SelUse V) (hu : u.ok) :
    (s.after u).Pure ∧ (s.after u).edits = s.edits := by
  cases u with
  | truth => exact (truth_pure s hs).2
  | mergeWith o => obtain ⟨a, ha, rfl⟩ := hu; exact ⟨(merge1_pure s _ hs (mk'_pure ha)).2.2.1, (merge1_pure s _ hs (mk'_pure ha)).2.2.2.1⟩
  | mergeInto o => obtain ⟨a, ha, rfl⟩ := hu; exact ⟨(merge1_pure _ s (mk'_pure ha) hs).2.2.2.2.1, (merge1_pure _ s (mk'_pure ha) hs).2.2.2.2.2⟩
  | apply h m => exact call_sel s hs h m

/-- **C04.** For a Select built from re-iterable arguments, after any history of truth tests, merges (on either side)
and applications, it still acts as when it was new. -/
theorem C04_select_reusable (a : SelectArgs V) (ha : Reiterable a) (hist : List (SelUse V)) (hh : ∀ u ∈ hist, u.ok) :
    ActAlike (hist.foldl Sel.after a.mk') a.mk' ∧
    (hist.foldl Sel.after a.mk').truth.1 = a.mk'.truth.1 := by
  have key : ∀ (l : List (SelUse V)) (s : Sel V), (∀ u ∈ l, u.ok) → s.Pure →
      (l.foldl Sel.after s).Pure ∧ (l.foldl Sel.after s).edits = s.edits := by
    intro l
    induction l with
    | nil => intro s _ hs; exact ⟨hs, rfl⟩
    | cons u l ih =>
      intro s hl hs
      have h1 := after_pure s hs u (hl u (by simp))
      have h2 := ih (s.after u) (fun u hu => hl u (by simp [hu])) h1.1
      exact ⟨h2.1, h2.2.trans h1.2⟩
  have := key hist a.mk' hh (mk'_pure ha)
  refine ⟨fun h m => call_congr _ _ this.1 (mk'_pure ha) this.2 h m, ?_⟩
  rw [(truth_pure _ this.1).1, (truth_pure _ (mk'_pure ha)).1, this.2]

/-- a history with every kind of use meets the hypothesis -/
example : ∀ u ∈ ([.truth, .apply exHeap (.dict 0), .mergeWith exArgs.mk', .mergeInto exArgs.mk',
    .apply exHeap (.chain [1, 0])] : List (SelUse Nat)), u.ok := by
  have : ∃ a, Reiterable a ∧ exArgs.mk' = a.mk' :=
    ⟨exArgs, by simp [Reiterable, exArgs, pairReiterable, keyReiterable], rfl⟩
  intro u hu
  simp at hu
  rcases hu with rfl | rfl | rfl | rfl | rfl <;> first | trivial | exact this

/-- **C04**, the truth value of a new Select, also over one-shot iterators: true iff any argument has an entry; the answer never
changes, however often it is asked for. -/
theorem C04_truth (a : SelectArgs V) :
    (a.mk'.truth.1 = true ↔ pairEntries a.add ≠ [] ∨ pairEntries a.maybeAdd ≠ [] ∨ keyEntries a.remove ≠ [] ∨
      keyEntries a.maybeRemove ≠ [] ∨ pairEntries a.rename ≠ [] ∨ pairEntries a.maybeRename ≠ []) ∧
    (a.mk'.truth.2.truth = (a.mk'.truth.1, a.mk'.truth.2)) := by
  have hp : ∀ {β : Type} (x : PairArg β), x.store.peek.1 = !(pairEntries x).isEmpty := by
    intro β x
    rcases x with d | (l | (_ | ⟨y, t⟩)) <;> rfl
  have hk : ∀ x : KeyArg, x.store.peek.1 = !(keyEntries x).isEmpty := by
    intro x
    rcases x with d | (l | (_ | ⟨y, t⟩)) <;> rfl
  constructor
  · simp only [Sel.truth, SelectArgs.mk', Sel.init, hp, hk]
    cases pairEntries a.add <;> cases pairEntries a.maybeAdd <;> cases keyEntries a.remove <;>
      cases keyEntries a.maybeRemove <;> cases pairEntries a.rename <;> cases pairEntries a.maybeRename <;> simp
  · simp only [Sel.truth, SelectArgs.mk', Sel.init, hp, hk]
    cases pairEntries a.add <;> cases pairEntries a.maybeAdd <;> cases keyEntries a.remove <;>
      cases keyEntries a.maybeRemove <;> cases pairEntries a.rename <;> cases pairEntries a.maybeRename <;> simp

/-- an exhausted iterator counts as empty -/
example : ({ remove := .iterable (.once []) } : SelectArgs Nat).mk'.truth.1 = false ∧
    ({ remove := .iterable (.once ["a"]) } : SelectArgs Nat).mk'.truth.1 = true := ⟨rfl, rfl⟩

/-- a Select over a generator -/
def onceArgs : SelectArgs Nat := { remove := .iterable (.once ["a", "b"]) }

/-- **C04**, the claim without the re-iterability hypothesis is false: for a generator argument the first
application already misses the first entry (eaten by the truth test), and the second application does nothing. -/
theorem C04_refuted_for_one_shot :
    (onceArgs.mk'.call exHeap (.dict 0)).outcome = .ok [("a", 1), ("c", 3), ("d", 4)] ∧
    ((onceArgs.mk'.call exHeap (.dict 0)).sel.call exHeap (.dict 0)).outcome = .ok (exHeap.at 0) := by
  exact ⟨rfl, rfl⟩

/-! ## C05 -/

/-- **C05.** `from_mapping` with any Select (also over one-shot iterators), any mappings and keywords: no dict that
existed before the call has changed, whether it succeeds or raises. -/
theorem C05_from_mapping_frame (b : BoundFactory V) (h : Heap V) (maps : List Nat) (kw : Dict V) (a : Nat)
    (ha : a < h.length) : (b.mapping h (fromMappingFunc maps kw)).2.at a = h.at a := by
  unfold BoundFactory.mapping fromMappingFunc Sel.call
  simp only
  have e1 : Heap.at (h ++ [kw]) a = h.at a := at_append_lt h kw a ha
  cases b.sel.truth.1 with
  | false => simpa using e1
  | true =>
    simp only [Bool.not_true, Bool.false_eq_true, if_false]
    split <;> simp only <;> rw [at_set_ne _ _ _ (by simp; omega), at_append_lt _ _ _ (by simp; omega), e1]

/-- **C05**, calling a (truthy) Select directly on a dict edits exactly that dict in place and returns the same object;
other dicts are untouched. On a ChainMap it works on a fresh copy. -/
theorem C05_direct_call (a : SelectArgs V) (ha : Reiterable a) (hne : (argEdits a).script ≠ []) (h : Heap V) :
    (∀ i, i < h.length →
      (∀ r, (a.mk'.call h (.dict i)).ret = .ok r →
        r = .dict i ∧ (a.mk'.call h (.dict i)).outcome = .ok ((a.mk'.call h (.dict i)).heap.at i)) ∧
      (∀ j, j ≠ i → (a.mk'.call h (.dict i)).heap.at j = h.at j)) ∧
    (∀ as, (∀ r, (a.mk'.call h (.chain as)).ret = .ok r → r = .dict h.length) ∧
      ∀ j, j < h.length → (a.mk'.call h (.chain as)).heap.at j = h.at j) := by
  have hE : (argEdits a).isEmpty = false := by
    cases hb : (argEdits a).isEmpty with
    | false => rfl
    | true => exact (hne ((isEmpty_iff_script _).1 hb)).elim
  constructor
  · intro i hi
    have hc := call_pure a.mk' (mk'_pure ha) h (.dict i)
    rw [mk'_edits ha, hE] at hc
    simp only [Bool.false_eq_true, if_false, Prod.mk.injEq] at hc
    obtain ⟨c1, c2⟩ := hc
    refine ⟨?_, ?_⟩
    · intro r hr
      have : r = .dict i := by
        rw [c1] at hr
        cases hx : (scriptLoop (argEdits a).script (h.at i)).2 with
        | none => rw [hx] at hr; cases hr; rfl
        | some e => rw [hx] at hr; cases hr
      subst this
      refine ⟨rfl, ?_⟩
      simp only [CallRes.outcome, hr, Except.map, MObj.items]
    · intro j hj
      rw [c2, at_set_ne _ _ _ (Ne.symm hj)]
  · intro as
    have hc := call_pure a.mk' (mk'_pure ha) h (.chain as)
    rw [mk'_edits ha, hE] at hc
    simp only [Bool.false_eq_true, if_false, Prod.mk.injEq] at hc
    obtain ⟨c1, c2⟩ := hc
    refine ⟨?_, ?_⟩
    · intro r hr
      rw [c1] at hr
      generalize (scriptLoop (argEdits a).script (Heap.at (h ++ [chainItems (as.map h.at)]) h.length)).2 = x at hr
      cases x with
      | none => cases hr; rfl
      | some e => cases hr
    · intro j hj
      rw [c2, at_set_ne _ _ _ (by omega), at_append_lt _ _ _ hj]

/-- **C05**, a direct call on a dict that raises half-way: if the edits before edit `e` of the script go through and `e`
fails, the exception is the one of `e`, and the caller's dict is left with exactly the edits before `e` done (none of
the later ones). -/
theorem C05_halfway (a : SelectArgs V) (ha : Reiterable a) (h : Heap V) (hh : h.WF) (i : Nat) (hi : i < h.length)
    (pre post : List (Edit V)) (e : Edit V) (hscript : (argEdits a).script = pre ++ e :: post) (g : AMap V) (k : ExcKind)
    (hpre : runScript pre (Dict.get? (h.at i)) = .ok g) (he : e.apply g = .error k) :
    (a.mk'.call h (.dict i)).ret = .error ⟨k, none⟩ ∧ Dict.get? ((a.mk'.call h (.dict i)).heap.at i) = g := by
  have hE : (argEdits a).isEmpty = false := by
    cases hb : (argEdits a).isEmpty with
    | false => rfl
    | true =>
      have := (isEmpty_iff_script _).1 hb
      rw [hscript] at this
      cases pre <;> cases this
  have hc := call_pure a.mk' (mk'_pure ha) h (.dict i)
  rw [mk'_edits ha, hE] at hc
  obtain ⟨m', e1, e2⟩ := scriptLoop_halfway pre e post (h.at i) (Heap.at_wf hh i) g k hpre he
  simp only [Bool.false_eq_true, if_false, Prod.mk.injEq, hscript, e1] at hc
  refine ⟨hc.1, ?_⟩
  rw [hc.2, at_set_self _ _ hi, e2]

/-- an application that raises half-way has already edited the caller's dict -/
example : (({ remove := .iterable (.many ["a", "zz"]) } : SelectArgs Nat).mk'.call exHeap (.dict 0)).outcome
      = .error .keyError ∧
    (({ remove := .iterable (.many ["a", "zz"]) } : SelectArgs Nat).mk'.call exHeap (.dict 0)).heap.at 0
      = [("b", 2), ("c", 3), ("d", 4)] := ⟨rfl, rfl⟩

/-- C05: the frame theorem applied to a successful and a failing factory call -/
example : (BoundFactory.mapping ⟨exArgs.mk'⟩ exHeap (fromMappingFunc [1, 0] [("k", 0)])).1 = .ok (.dict 3) ∧
    (BoundFactory.mapping ⟨exArgs.mk'⟩ exHeap (fromMappingFunc [1] [("k", 0)])).1 = .error .keyError := ⟨rfl, rfl⟩

/-! ## C06 -/

/-- **C06.** Exact behaviour of one maybe-rename entry `s → d` on any mapping. -/
theorem C06_maybe_rename_exact (s d : String) (h : Heap V) (hh : h.WF) (m : MObj) (hv : m.Valid h) :
    let r := (({ maybeRename := .mapping [(s, d)] } : SelectArgs V).mk'.call h m).outcome
    let old := (m.items h).get? s
    let new := (m.items h).get? d
    (old = none → ∃ x, r = .ok x ∧ ∀ k, x.get? k = (m.items h).get? k) ∧
    (∀ v, old = some v → new = none → ∃ x, r = .ok x ∧
      ∀ k, x.get? k = if k = d then some v else if k = s then none else (m.items h).get? k) ∧
    (old.isSome → new.isSome → r = .error .valueError) := by
  have hr : Reiterable ({ maybeRename := .mapping [(s, d)] } : SelectArgs V) := by
    simp [Reiterable, pairReiterable, keyReiterable]
  have hc := C01_select_refines_script _ hr h hh m hv
  have hs : (argEdits ({ maybeRename := .mapping [(s, d)] } : SelectArgs V)).script = [.maybeRename s d] := rfl
  rw [hs] at hc
  simp only [runScript] at hc
  intro r old new
  refine ⟨?_, ?_, ?_⟩
  · intro ho
    simp only [Edit.apply, show Dict.get? (m.items h) s = none from ho] at hc
    obtain ⟨x, h1, _, h2⟩ := hc
    exact ⟨x, h1, h2⟩
  · intro v ho hn
    simp only [Edit.apply, show Dict.get? (m.items h) s = some v from ho, show Dict.get? (m.items h) d = none from hn] at hc
    obtain ⟨x, h1, _, h2⟩ := hc
    exact ⟨x, h1, fun k => by rw [h2]; rfl⟩
  · intro ho hn
    obtain ⟨v, hv'⟩ := Option.isSome_iff_exists.1 ho
    obtain ⟨w, hw'⟩ := Option.isSome_iff_exists.1 hn
    simp only [Edit.apply, show Dict.get? (m.items h) s = some v from hv', show Dict.get? (m.items h) d = some w from hw'] at hc
    exact hc

/-- **C06**, the documented claim: if the new name already exists the entry is skipped. -/
def C06_claim : Prop :=
  ∀ (s d : String) (h : Heap Nat) (m : MObj), h.WF → m.Valid h → ((m.items h).get? d).isSome →
    (({ maybeRename := .mapping [(s, d)] } : SelectArgs Nat).mk'.call h m).outcome = .ok (m.items h)

/-- **C06** refuted: with both names present the code raises ValueError instead of skipping. -/
theorem C06_refuted : ¬ C06_claim := by
  intro hc
  have := hc "a" "b" exHeap (.dict 0) (by
    intro d hd; simp [exHeap] at hd; rcases hd with rfl | rfl <;> simp [Dict.WF]) (by simp [MObj.Valid, exHeap]) rfl
  have h2 : (({ maybeRename := .mapping [("a", "b")] } : SelectArgs Nat).mk'.call exHeap (.dict 0)).outcome
      = .error .valueError := rfl
  rw [h2] at this
  cases this

/-! ## C07 -/

/-- apply `a`, then `b` on what `a` returned -/
def Sel.andThen (a b : Sel V) (h : Heap V) (m : MObj) : Except Exc MObj × Heap V :=
  let r := a.call h m
  match r.ret with
  | .error e => (.error e, r.heap)
  | .ok m' => ((b.call r.heap m').ret, (b.call r.heap m').heap)

/-- **C07.** If no edit kind used by `b` is executed before an edit kind used by `a`, then applying the merge of `a`
and `b` is the same as applying `a` and then `b`: same returned object or exception, same effect on all dicts
(also when it raises). -/
theorem C07_merge_is_sequential (a b : SelectArgs V) (ha : Reiterable a) (hb : Reiterable b)
    (hab : (argEdits a).before (argEdits b)) (ab : Sel V) (hm : a.mk'.merge [b.mk'] none = .ok ab)
    (h : Heap V) (m : MObj) (hv : m.Valid h) :
    ((ab.call h m).ret, (ab.call h m).heap) = a.mk'.andThen b.mk' h m := by
  simp only [Sel.merge, List.foldl_cons, List.foldl_nil, Except.ok.injEq] at hm
  subst hm
  have mp := merge1_pure _ _ (mk'_pure ha) (mk'_pure hb)
  rw [call_pure _ mp.1, mp.2.1, mk'_edits ha, mk'_edits hb]
  have key := call_pure a.mk' (mk'_pure ha) h m
  rw [mk'_edits ha, Prod.mk.injEq] at key
  unfold Sel.andThen
  simp only
  cases hE : (argEdits a).isEmpty with
  | true =>
    simp only [hE, if_true] at key
    rw [Edits.append_empty_left hE, key.1, key.2]
    simp only
    rw [call_pure _ (mk'_pure hb), mk'_edits hb]
  | false =>
    have hF : ((argEdits a).append (argEdits b)).isEmpty = false := by
      cases hx : ((argEdits a).append (argEdits b)).isEmpty with
      | false => rfl
      | true =>
        rw [isEmpty_iff_script, script_before hab] at hx
        rw [(isEmpty_iff_script _).2 (List.append_eq_nil_iff.1 hx).1] at hE
        cases hE
    rw [hF, script_before hab]
    simp only [Bool.false_eq_true, if_false]
    rw [hE] at key
    simp only [Bool.false_eq_true, if_false] at key
    -- both cases work at address `i` of heap `g`
    have main : ∀ (i : Nat) (g : Heap V), i < g.length →
        (a.mk'.call h m).ret = (match (scriptLoop (argEdits a).script (g.at i)).2 with
          | some e => .error e
          | none => .ok (.dict i)) →
        (a.mk'.call h m).heap = g.set i (scriptLoop (argEdits a).script (g.at i)).1 →
        ((match (scriptLoop ((argEdits a).script ++ (argEdits b).script) (g.at i)).2 with
          | some e => .error e
          | none => .ok (.dict i) : Except Exc MObj),
          g.set i (scriptLoop ((argEdits a).script ++ (argEdits b).script) (g.at i)).1) =
        match (a.mk'.call h m).ret with
        | .error e => (.error e, (a.mk'.call h m).heap)
        | .ok m' => ((b.mk'.call (a.mk'.call h m).heap m').ret, (b.mk'.call (a.mk'.call h m).heap m').heap) := by
      intro i g hi k1 k2
      rw [scriptLoop_append, k1, k2]
      cases hx : (scriptLoop (argEdits a).script (g.at i)).2 with
      | some e => simp
      | none =>
        simp only
        rw [call_pure _ (mk'_pure hb), mk'_edits hb]
        cases hG : (argEdits b).isEmpty with
        | true => simp [isEmpty_script hG, scriptLoop]
        | false =>
          simp only [Bool.false_eq_true, if_false, at_set_self _ _ hi, List.set_set]
          cases (scriptLoop (argEdits b).script (scriptLoop (argEdits a).script (g.at i)).1).2 <;> rfl
    cases m with
    | dict i => exact main i h hv key.1 key.2
    | chain as => exact main h.length (h ++ [chainItems (as.map h.at)]) (by simp) key.1 key.2

/-- C07 applies, e.g., when `a` only removes and renames and `b` only renames and adds -/
example : (argEdits ({ remove := .str "b", rename := .mapping [("a", "x")] } : SelectArgs Nat)).before
    (argEdits { rename := .mapping [("x", "y")], add := .mapping [("b", 5)] }) := by
  intro x hx y hy
  simp [Edits.script, argEdits, keyEntries, pairEntries] at hx hy
  rcases hx with rfl | rfl <;> rcases hy with rfl | rfl <;> simp [Edit.phase]

example : (Sel.andThen ({ remove := .str "b", rename := .mapping [("a", "x")] } : SelectArgs Nat).mk'
    ({ rename := .mapping [("x", "y")], add := .mapping [("b", 5)] } : SelectArgs Nat).mk' exHeap (.dict 0)).1
    = .ok (.dict 0) := rfl

/-- **C07**, without the hypothesis it fails: renaming `a` to `x` and then removing `x` works one after the other, but
the merged Select raises KeyError (its remove runs first). -/
theorem C07_refuted_in_general :
    (Sel.andThen ({ rename := .mapping [("a", "x")] } : SelectArgs Nat).mk'
      ({ remove := .str "x" } : SelectArgs Nat).mk' exHeap (.dict 0)).1 = .ok (.dict 0) ∧
    ∃ ab, ({ rename := .mapping [("a", "x")] } : SelectArgs Nat).mk'.merge
      [({ remove := .str "x" } : SelectArgs Nat).mk'] none = .ok ab ∧
      (ab.call exHeap (.dict 0)).ret = .error .keyError := ⟨rfl, _, rfl, rfl⟩

end Records

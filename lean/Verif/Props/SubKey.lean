import Verif.Proofs.SubKey
import Verif.Spec.ToyTok
/-
C99: tokens that `pre_bind` adds to a field, or with `sub_key=` to a part of its type.
-/
namespace Records
variable {W : World}

/-! ### C99 -/

/-- Tokens added to a container field and (with `sub_key=`) to its parts do the same as writing them into the type: the tokens
of a part into the type of the part, the tokens of the field into the `Annotated` of the field. -/
theorem C99_container {d : Style} {pre : List (Option Int × Tok W)} {h h' h2 : Hint W} {keys : Nat → Int → Prop}
    {hs hs' : List (Hint W)} {args : List (Tok W)} (hk : Keyed h keys hs)
    (hv : ∀ q ∈ pre, ∀ i, q.1 = some i → ∃ j, j < hs.length ∧ keys j i) (hl : hs'.length = hs.length)
    (hr : ∀ (j : Nat) p p', hs[j]? = some p → hs'[j]? = some p' → ∃ ts, Addressed keys j pre ts ∧ Amended p ts p')
    (hb : Rebuilt h hs' h') (ha : Amended (h'.withTokens args) (ownTokens pre) h2) :
    Agree (makeFiller d pre (h.withTokens args)) (makeFiller d [] h2) := by
  obtain ⟨k, c, hc, hkeys⟩ := hk.container
  have hc' := hb.container hc
  rw [makeFiller_withTokens hc.notAnnotated, makeFiller_amended hc'.notAnnotated hc'.notUnion d [] ha]
  refine container_agree hc hc' ?_ hl ?_
  · intro q hq i hi
    obtain ⟨j, hj, hji⟩ := hv q hq i hi
    exact ⟨j, hj, (hkeys j i).1 hji⟩
  · intro j p p' hp hp'
    obtain ⟨ts, hts, ha⟩ := hr j p p' hp hp'
    rw [hts.eq (hkeys j)] at ha
    exact ha

/-- Tokens added to a union field and to its members do the same as writing into every member: first the member's own ones,
then the ones listed for the union, then the ones added to the field. -/
theorem C99_union {d : Style} {pre : List (Option Int × Tok W)} {hs hs' : List (Hint W)} {args : List (Tok W)}
    (hv : ∀ q ∈ pre, ∀ i, q.1 = some i → HasKey (.union hs) i) (hl : hs'.length = hs.length)
    (hr : ∀ (j : Nat) p p', hs[j]? = some p → hs'[j]? = some p' →
      ∃ ts, Addressed (fun j i => i = j ∨ i = (j : Int) - hs.length) j pre ts ∧ Amended p (ts ++ args ++ ownTokens pre) p') :
    Agree (makeFiller d pre ((Hint.union hs).withTokens args)) (makeFiller d [] (.union hs')) := by
  have hn : ∀ hs : List (Hint W), ∀ h' ts, Hint.union hs ≠ .annotated h' ts := by intro hs h' ts h; cases h
  have e : makeFiller d [] (Hint.union hs') = makeFiller d [] (.annotated (.union hs') []) := makeFiller_withTokens (hn hs') d [] []
  rw [makeFiller_withTokens (hn _), e]
  refine union_agree ?_ hl ?_
  · intro q hq i hi
    cases hv q hq i hi with
    | union h1 h2 =>
      by_cases h0 : 0 ≤ i
      · exact ⟨i.toNat, by omega, .inl (by omega)⟩
      · exact ⟨(i + hs.length).toNat, by omega, .inr ⟨rfl, by omega⟩⟩
  · intro j p p' hp hp'
    obtain ⟨ts, hts, ha⟩ := hr j p p' hp hp'
    rw [hts.eq (neg := true) (n := hs.length) (by simp)] at ha
    rw [List.append_assoc] at ha
    exact ha

/-- Tokens added to a field of any type do the same as listing them in its `Annotated`. -/
theorem C99_field {d : Style} {ts : List (Tok W)} {h h' : Hint W} (ha : Amended h ts h') :
    Agree (makeFiller d (ts.map fun t => (none, t)) h) (makeFiller d [] h') := by
  have e : ∀ (ts : List (Tok W)) (h : Hint W), makeFiller d (ts.map fun t => (none, t)) h = memberFiller d ts h := by
    intro ts h
    unfold makeFiller memberFiller
    cases getFiller h with
    | error e => rfl
    | ok f =>
      simp only
      have : f.applyPre (ts.map fun t => (none, t)) = f.applyAll ts := by
        induction ts generalizing f with
        | nil => rfl
        | cons t ts ih =>
          simp only [List.map, F.applyPre, F.applyAll, F.applySub, F.withSub]
          cases f.apply t with
          | error e => rfl
          | ok f' => exact ih f'
      rw [this]
      cases f.applyAll ts <;> rfl
  rw [e]
  have := e [] h'
  simp only [List.map] at this
  rw [this]
  exact agree_member d ha

/-- A legal declaration uses only keys that address a part of the field's type. -/
theorem C99_keys {d : Style} {pre : List (Option Int × Tok W)} {h : Hint W} {args : List (Tok W)} {f : F W}
    (hn : ∀ h' ts, h ≠ .annotated h' ts) (hf : makeFiller d pre (h.withTokens args) = .ok f) :
    ∀ q ∈ pre, ∀ i, q.1 = some i → HasKey h i := by
  intro q hq i hi
  unfold makeFiller at hf
  rw [getFiller_withTokens hn] at hf
  cases hg : getF h (some args) with
  | error e => simp [hg] at hf
  | ok g =>
    simp only [hg] at hf
    cases hp : g.applyPre pre with
    | error e => simp [hp] at hf
    | ok g' =>
      have := applyPre_keyErr hp q hq i hi
      rcases getF_keyErr h hg i with ⟨h1, -⟩ | ⟨-, -, h3⟩ | ⟨-, -, h3⟩
      · exact h1
      · rw [this] at h3; cases h3
      · rw [this] at h3; cases h3

/-- Creating a class with a key that addresses no part raises: IndexError for tuples and unions, LookupError for all other
types. Nothing else of the declaration is reported first if the type itself is supported and no earlier token fails. -/
theorem C99_bad_key {d : Style} {pre pre' : List (Option Int × Tok W)} {h : Hint W} {args : List (Tok W)} {g g' : F W} {i : Int}
    {t : Tok W} (hn : ∀ h' ts, h ≠ .annotated h' ts) (hg : getFiller (h.withTokens args) = .ok g) (hp : g.applyPre pre = .ok g')
    (hk : ¬ HasKey h i) :
    (Positional h → makeFiller d (pre ++ (some i, t) :: pre') (h.withTokens args) = .error .indexError) ∧
    (¬ Positional h → makeFiller d (pre ++ (some i, t) :: pre') (h.withTokens args) = .error .lookupError) := by
  have hk' : ∀ e, g.keyErr i = some e → makeFiller d (pre ++ (some i, t) :: pre') (h.withTokens args) = .error e := by
    intro e he
    unfold makeFiller
    rw [hg]
    have : g.applyPre (pre ++ (some i, t) :: pre') = .error e := by
      rw [applyPre_append, hp]
      simp only [F.applyPre]
      have h1 : g'.applySub (some i) t = .error e := (withSub_keyErr g' i _).1 e (by rw [applyPre_keyErr_eq hp]; exact he)
      rw [h1]
    simp only [this]
  rw [getFiller_withTokens hn] at hg
  rcases getF_keyErr h hg i with ⟨h1, -⟩ | ⟨-, h2, h3⟩ | ⟨-, h2, h3⟩
  · exact absurd h1 hk
  · exact ⟨fun _ => hk' _ h3, fun h => absurd h2 h⟩
  · exact ⟨fun h => absurd h h2, fun _ => hk' _ h3⟩

end Records

namespace Records.Toy.Sk
open Records

/-- `Tuple[int, Annotated[int, Loose]]`; `pre_bind` adds a coercer to the second part (key `-1`), `Loose` to the first
and a validator to the field -/
def tokens : List (Option Int × Tok Toy.W) :=
  [(some (-1), ctok (ret 7 (.int 9))), (none, vtok (pass 1)), (some 0, looseTok)]

def hint : Hint Toy.W := .tupleFix [.cls .int, .annotated (.cls .int) [looseTok]]

/-- the same written down -/
def written : Hint Toy.W := .annotated
  (.tupleFix [.annotated (.cls .int) [looseTok], .annotated (.cls .int) [ctok (ret 7 (.int 9)), looseTok]]) [vtok (pass 1)]

example : Agree (makeFiller .check tokens hint) (makeFiller .check [] written) := by
  refine C99_container (W := Toy.W) (h := hint) (args := [])
    (hs' := [.annotated (.cls .int) [looseTok], .annotated (.cls .int) [ctok (ret 7 (.int 9)), looseTok]])
    (.tupleFix _) ?_ rfl ?_ (.tupleFix _ _) ?_
  · intro q hq i hi
    simp only [tokens, List.mem_cons, List.not_mem_nil, or_false] at hq
    rcases hq with rfl | rfl | rfl
    · cases hi; exact ⟨1, by decide, .inr rfl⟩
    · cases hi
    · cases hi; exact ⟨0, by decide, .inl rfl⟩
  · intro j p p' hp hp'
    match j with
    | 0 =>
      cases hp; cases hp'
      exact ⟨[looseTok], .skip (by decide) (.own (.take (.inl rfl) .nil)), .plain (fun h' ts h => nomatch h) nofun⟩
    | 1 =>
      cases hp; cases hp'
      exact ⟨[ctok (ret 7 (.int 9))], .take (.inr rfl) (.own (.skip (by decide) .nil)), .front nofun nofun⟩
    | j + 2 => cases hp
  · exact Amended.plain (h := .tupleFix _) (toks := [vtok (pass 1)]) (fun h' ts h => nomatch h) nofun

/-- both are legal and change the tuple in the same way -/
example : ∃ f g, makeFiller .check tokens hint = .ok f ∧ makeFiller .check [] written = .ok g ∧
    (f.call (.seq .tuple (spine [.str "5", .str "x"])) s0).1 = .ok (.seq .tuple (spine [.int 5, .int 9])) ∧
    (g.call (.seq .tuple (spine [.str "5", .str "x"])) s0).1 = .ok (.seq .tuple (spine [.int 5, .int 9])) := ⟨_, _, rfl, rfl, rfl, rfl⟩

/-- `Annotated[Union[int, str], c]` with a coercer `c` (to 1) and a coercer to 2 added to the first member: 2 comes first -/
example : Agree
    (makeFiller (W := Toy.W) .check [(some 0, ctok (ret 2 (.int 2)))] (.annotated (.union [.cls .int, .cls .str]) [ctok (ret 1 (.int 1))]))
    (makeFiller (W := Toy.W) .check [] (.union [.annotated (.cls .int) [ctok (ret 2 (.int 2)), ctok (ret 1 (.int 1))],
      .annotated (.cls .str) [ctok (ret 1 (.int 1))]])) := by
  refine C99_union (W := Toy.W) (hs := [.cls .int, .cls .str]) (args := [ctok (ret 1 (.int 1))]) ?_ rfl ?_
  · intro q hq i hi
    simp only [List.mem_singleton] at hq
    subst hq
    cases hi
    exact .union (by decide) (by decide)
  · intro j p p' hp hp'
    match j with
    | 0 =>
      cases hp; cases hp'
      exact ⟨[ctok (ret 2 (.int 2))], .take (.inl rfl) .nil, .plain (fun h' ts h => nomatch h) nofun⟩
    | 1 =>
      cases hp; cases hp'
      exact ⟨[], .skip (by decide) .nil, .plain (fun h' ts h => nomatch h) nofun⟩
    | j + 2 => cases hp

example : ∃ f, makeFiller (W := Toy.W) .check [(some 0, ctok (ret 2 (.int 2)))]
    (.annotated (.union [.cls .int, .cls .str]) [ctok (ret 1 (.int 1))]) = .ok f ∧ (f.call .none s0).1 = .ok (.int 2) :=
  ⟨_, rfl, rfl⟩

/-- `Optional[int]` inside `Annotated`: the added token comes behind the listed one; for `int` it comes in front -/
example : Agree
    (makeFiller (W := Toy.W) .check [(none, ctok (ret 2 (.int 2)))] (.annotated (.union [.cls .int, .none]) [looseTok]))
    (makeFiller (W := Toy.W) .check [] (.annotated (.union [.cls .int, .none]) [looseTok, ctok (ret 2 (.int 2))])) ∧
  Agree
    (makeFiller (W := Toy.W) .check [(none, ctok (ret 2 (.int 2)))] (.annotated (.cls .int) [looseTok]))
    (makeFiller (W := Toy.W) .check [] (.annotated (.cls .int) [ctok (ret 2 (.int 2)), looseTok])) :=
  ⟨C99_field (ts := [_]) (.behind (.union _) nofun), C99_field (ts := [_]) (.front nofun nofun)⟩

/-- keys: `Tuple[int, str]` has no part 2, `List[int]` no part 1 -/
example : makeFiller (W := Toy.W) .check [(some 0, looseTok), (some 2, looseTok)] (.tupleFix [.cls .int, .cls .str]) = .error .indexError ∧
    makeFiller (W := Toy.W) .check [(some 1, looseTok)] (.iter .list (.cls .int)) = .error .lookupError := by
  refine ⟨(C99_bad_key (W := Toy.W) (pre := [(some 0, looseTok)]) (args := []) (h := .tupleFix [.cls .int, .cls .str]) (fun _ _ h => nomatch h)
    rfl rfl ?_).1 (.tupleFix _), (C99_bad_key (W := Toy.W) (pre := []) (args := []) (h := .iter .list (.cls .int)) (fun _ _ h => nomatch h) rfl rfl
    ?_).2 nofun⟩
  · intro h; cases h with | tupleFix a b => simp at b
  · intro h; cases h

end Records.Toy.Sk

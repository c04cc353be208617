import Verif.Model.Coercers
import Verif.Proofs.Monad
import Verif.Spec.Toy
/-
Properties C12 - C18, C86: coercion tokens.
-/
set_option linter.unusedSimpArgs false
namespace Records
variable {W : World}

/-- element-wise relation of two lists -/
inductive AllRel {α β : Type} (R : α → β → Prop) : List α → List β → Prop
  | nil : AllRel R [] []
  | cons {a b l m} : R a b → AllRel R l m → AllRel R (a :: l) (b :: m)

/-! ## C12 -/

/-- right-to-left composition: `t1(t2(...tn(v)))` -/
def kleisli : List (Coercer W) → Coercer W
  | [] => fun v => M.pure v
  | f :: fs => fun v => M.bind (kleisli fs v) f

theorem composeRun_eq (fs : List (Coercer W)) (v : W.Obj) : composeRun fs v = kleisli fs v := by
  unfold composeRun
  induction fs generalizing v with
  | nil => rfl
  | cons f fs ih =>
    rw [List.reverse_cons, foldM_append, ih]
    simp only [kleisli]
    congr 1; funext x
    simp only [M.foldM]
    exact M.bind_pure (f x)

theorem kleisli_append (fs gs : List (Coercer W)) (v : W.Obj) :
    kleisli (fs ++ gs) v = M.bind (kleisli gs v) (kleisli fs) := by
  induction fs generalizing v with
  | nil => exact (M.bind_pure _).symm
  | cons f fs ih => simp only [List.cons_append, kleisli, ih, M.bind_assoc]

/-- **C12.** If the inner tokens give the callbacks `fs`, the composed token gives `v ↦ f1(f2(...fn(v)))`. -/
theorem C12_compose (isBool : Bool) (origin : Option W.Cls) (ts : List (CTok W)) (fs : List (Coercer W))
    (h : AllRel (fun t f => getCoercer isBool origin t = .ok f) ts fs) :
    ∃ g, getCoercer isBool origin (.compose ts) = .ok g ∧ ∀ v, g v = kleisli fs v := by
  have : getCoercers isBool origin ts = .ok fs := by
    induction h with
    | nil => rfl
    | cons h1 _ ih => simp [getCoercers, h1, ih]
  exact ⟨composeRun fs, by simp [getCoercer, this], composeRun_eq fs⟩

/-- **C12.** If an inner coercer raises, the chain stops: the exception propagates with the state at that point, and the
remaining (outer) callbacks are not run, whatever they are. -/
theorem C12_exception_stops (fs gs : List (Coercer W)) (v : W.Obj) (s s' : LState W) (e : Exc)
    (h : kleisli gs v s = (.error e, s')) : kleisli (fs ++ gs) v s = (.error e, s') := by
  rw [kleisli_append, M.bind, h]

/-- **C12.** Composing one token is that token; nesting composes associatively. -/
theorem C12_laws (isBool : Bool) (origin : Option W.Cls) (t : CTok W) (ts us : List (CTok W)) (f : Coercer W)
    (fs gs : List (Coercer W)) (ht : getCoercer isBool origin t = .ok f)
    (hts : AllRel (fun t f => getCoercer isBool origin t = .ok f) ts fs)
    (hus : AllRel (fun t f => getCoercer isBool origin t = .ok f) us gs) :
    (∃ g, getCoercer isBool origin (.compose [t]) = .ok g ∧ ∀ v, g v = f v) ∧
    (∃ g g', getCoercer isBool origin (.compose [.compose ts, .compose us]) = .ok g ∧
      getCoercer isBool origin (.compose (ts ++ us)) = .ok g' ∧ ∀ v, g v = g' v) := by
  constructor
  · obtain ⟨g, h1, h2⟩ := C12_compose isBool origin [t] [f] (.cons ht .nil)
    exact ⟨g, h1, fun v => by rw [h2]; rfl⟩
  · obtain ⟨a, ha1, ha2⟩ := C12_compose isBool origin ts fs hts
    obtain ⟨b, hb1, hb2⟩ := C12_compose isBool origin us gs hus
    obtain ⟨g, hg1, hg2⟩ := C12_compose isBool origin [.compose ts, .compose us] [a, b] (.cons ha1 (.cons hb1 .nil))
    have happ : AllRel (fun t f => getCoercer isBool origin t = .ok f) (ts ++ us) (fs ++ gs) := by
      clear ha1 ha2 hg1 hg2
      induction hts with
      | nil => exact hus
      | cons h _ ih => exact .cons h ih
    obtain ⟨g', hg'1, hg'2⟩ := C12_compose isBool origin (ts ++ us) (fs ++ gs) happ
    refine ⟨g, g', hg1, hg'1, fun v => ?_⟩
    rw [hg2, hg'2, kleisli_append]
    have e1 : a = kleisli fs := funext ha2
    have e2 : b = kleisli gs := funext hb2
    subst e1 e2
    rfl

/-- a coercer used in the examples: logs `n`, then maps integers `i` to `i + n` and rejects everything else -/
def addCoercer (n : Nat) : Coercer Toy.W := fun v => M.bind (Toy.log n) fun _ =>
  match v with
  | .int i => M.pure (.int (i + n))
  | _ => M.throw .typeError

/-- hypotheses of C12 met: two effectful coercers, the right one runs first -/
example : kleisli [addCoercer 1, addCoercer 2] (.int 5) Toy.s0 = (.ok (.int 8), { Toy.s0 with user := [2, 1] }) ∧
    kleisli [addCoercer 1, addCoercer 2] .none Toy.s0 = (.error .typeError, { Toy.s0 with user := [2] }) := ⟨rfl, rfl⟩

/-! ## C13 -/

/-- `v` is found in the dict under the entry `(k, x)` -/
def Hit {β : Type} (d : List (W.Obj × β)) (v : W.Obj) (x : β) : Prop :=
  ∃ k, (k, x) ∈ d ∧ (k = v ∨ W.eq k v = true)

/-- a dict holds at most one entry per key -/
def UniqueHit {β : Type} (d : List (W.Obj × β)) (v : W.Obj) : Prop := ∀ x y, Hit d v x → Hit d v y → x = y

theorem pyLookup_hit {β : Type} {d : List (W.Obj × β)} {v : W.Obj} {x : β} (hv : W.hashable v = true)
    (hu : UniqueHit d v) (hx : Hit d v x) : pyLookup d v = .ok (some x) := by
  unfold pyLookup; rw [if_pos hv]
  cases hf : d.find? fun kv => decide (kv.1 = v) || W.eq kv.1 v with
  | none =>
    obtain ⟨k, hk, hh⟩ := hx
    have := List.find?_eq_none.1 hf _ hk
    simp at this; exact (hh.elim this.1 (by simp [this.2])).elim
  | some p =>
    have h1 := List.mem_of_find?_eq_some hf
    have h2 := List.find?_some hf
    simp at h2
    have := hu p.2 x ⟨p.1, h1, h2⟩ hx
    simp [this]

theorem pyLookup_miss {β : Type} {d : List (W.Obj × β)} {v : W.Obj} (hv : W.hashable v = true)
    (hx : ∀ x, ¬ Hit d v x) : pyLookup d v = .ok none := by
  unfold pyLookup; rw [if_pos hv]
  cases hf : d.find? fun kv => decide (kv.1 = v) || W.eq kv.1 v with
  | none => rfl
  | some p =>
    have h1 := List.mem_of_find?_eq_some hf
    have h2 := List.find?_some hf
    simp at h2
    exact (hx p.2 ⟨p.1, h1, h2⟩).elim

/-- **C13.** A hashable key in `value_map` gives the mapped value, without running any code; a key only in
`factory_map` runs exactly that factory; anything else raises TypeError without running any code. -/
theorem C13_map (vm : List (W.Obj × W.Obj)) (fm : List (W.Obj × M W W.Obj)) (v : W.Obj) (s : LState W)
    (hu : UniqueHit vm v) (hu' : UniqueHit fm v) :
    (W.hashable v = true → ∀ x, Hit vm v x → mapCoercion vm fm v s = (.ok x, s)) ∧
    (W.hashable v = true → (∀ x, ¬ Hit vm v x) → ∀ f, Hit fm v f → mapCoercion vm fm v s = f s) ∧
    (W.hashable v = true → (∀ x, ¬ Hit vm v x) → (∀ f, ¬ Hit fm v f) →
      mapCoercion vm fm v s = (.error .typeError, s)) ∧
    (W.hashable v = false → mapCoercion vm fm v s = (.error .typeError, s)) := by
  refine ⟨?_, ?_, ?_, ?_⟩
  · intro hv x hx; simp [mapCoercion, pyLookup_hit hv hu hx, M.pure]
  · intro hv hx f hf; simp [mapCoercion, pyLookup_miss hv hx, pyLookup_hit hv hu' hf]
  · intro hv hx hf; simp [mapCoercion, pyLookup_miss hv hx, pyLookup_miss hv hf, M.throw]
  · intro hv; simp [mapCoercion, pyLookup, hv, M.throw]

/-- hypotheses met: `True` is found under the key `1`, `"x"` runs the factory -/
example : Hit (W := Toy.W) (β := Toy.TObj) [(.int 1, .str "one")] (.bool true) (.str "one") ∧
    UniqueHit (W := Toy.W) (β := Toy.TObj) [(.int 1, .str "one")] (.bool true) ∧
    mapCoercion (W := Toy.W) [(.int 1, .str "one")] [(.str "x", M.bind (Toy.log 3) fun _ => M.pure (.int 7))]
      (.str "x") Toy.s0 = (.ok (.int 7), { Toy.s0 with user := [3] }) := by
  refine ⟨⟨.int 1, by simp, .inr rfl⟩, ?_, rfl⟩
  rintro x y ⟨k, hk, _⟩ ⟨k', hk', _⟩
  simp at hk hk'; cases hk; cases hk'; rfl

/-- **C13**, later changes: what a token does is decided by the entries its mappings have when it is called, except that a mapping
without entries when the token is made counts as absent forever. -/
theorem C13_later (values values' : Nat → List (W.Obj × W.Obj)) (factories factories' : Nat → List (W.Obj × M W W.Obj))
    (v : W.Obj) (m n : Nat) :
    (values m ≠ [] → factories n ≠ [] →
      mapCoercionLater values factories (some m) (some n) values' factories' v = mapCoercion (values' m) (factories' n) v) ∧
    (values m ≠ [] → (∀ fm, fm = none ∨ (fm = some n ∧ factories n = []) →
      mapCoercionLater values factories (some m) fm values' factories' v = mapCoercion (values' m) [] v)) ∧
    (factories n ≠ [] → (∀ vm, vm = none ∨ (vm = some m ∧ values m = []) →
      mapCoercionLater values factories vm (some n) values' factories' v = mapCoercion [] (factories' n) v)) ∧
    (∀ vm fm, vm = none ∨ (vm = some m ∧ values m = []) → fm = none ∨ (fm = some n ∧ factories n = []) →
      ∀ s, mapCoercionLater values factories vm fm values' factories' v s = (.error .typeError, s)) := by
  have ne : ∀ {γ : Type} {l : List γ}, l ≠ [] → l.isEmpty = false := by
    intro γ l h; cases l with
    | nil => exact absurd rfl h
    | cons => rfl
  have keepV : ∀ vm, vm = none ∨ (vm = some m ∧ values m = []) → mapKeep values vm = none := by
    rintro vm (rfl | ⟨rfl, h⟩)
    · rfl
    · simp [mapKeep, h]
  have keepF : ∀ fm, fm = none ∨ (fm = some n ∧ factories n = []) → mapKeep factories fm = none := by
    rintro fm (rfl | ⟨rfl, h⟩)
    · rfl
    · simp [mapKeep, h]
  refine ⟨fun h1 h2 => ?_, fun h1 fm h2 => ?_, fun h1 vm h2 => ?_, fun vm fm h1 h2 s => ?_⟩
  · simp [mapCoercionLater, mapKeep, ne h1, ne h2, mapNow]
  · simp only [mapCoercionLater, keepF fm h2]; simp [mapKeep, ne h1, mapNow]
  · simp only [mapCoercionLater, keepV vm h2]; simp [mapKeep, ne h1, mapNow]
  · simp only [mapCoercionLater, keepV vm h1, keepF fm h2, mapNow, mapCoercion, pyLookup]
    cases W.hashable v <;> rfl

/-- The claim that a `MapCoercion` looks into its mapping as it is when a value is coerced -/
def C13_claim : Prop := ∀ (values values' : Nat → List (Toy.TObj × Toy.TObj)) (m : Nat) (v : Toy.TObj),
  mapCoercionLater (W := Toy.W) values (fun _ => []) (some m) none values' (fun _ => []) v = mapCoercion (W := Toy.W) (values' m) [] v

/-- Refuted: `d = {}; t = MapCoercion(d); d[1] = 2` - the token does not know 1. -/
theorem C13_refuted : ¬ C13_claim := by
  intro h
  have := congrArg (fun r => (r Toy.s0).1) (h (fun _ => []) (fun _ => [(.int 1, .int 2)]) 0 (.int 1))
  cases this

/-- `d = {1: 2}; t = MapCoercion(d); d[3] = 4` - the token knows 3 -/
example : mapCoercionLater (W := Toy.W) (fun _ => [(.int 1, .int 2)]) (fun _ => []) (some 0) none
    (fun _ => [(.int 1, .int 2), (.int 3, .int 4)]) (fun _ => []) (.int 3) Toy.s0 = (.ok (.int 4), Toy.s0) := rfl

/-! ## C14 -/

/-- `int.from_bytes(b, byteorder, signed=signed)` -/
def fromBytes (little signed : Bool) (b : List Nat) : Int :=
  let b := if little then b.reverse else b
  let n : Nat := b.foldl (fun a d => a * 256 + d) 0
  if signed ∧ 128 ≤ b.headD 0 then (n : Int) - (256 : Int) ^ b.length else n

theorem digits_length (n v : Nat) : (digits n v).length = n := by
  induction n generalizing v with
  | zero => rfl
  | succ n ih => simp [digits, ih]

theorem digits_fold (n v : Nat) : (digits n v).foldl (fun a d => a * 256 + d) 0 = v % 256 ^ n := by
  induction n generalizing v with
  | zero => simp [digits, Nat.mod_one]
  | succ n ih =>
    simp only [digits, List.foldl_append, ih, List.foldl_cons, List.foldl_nil]
    rw [Nat.pow_succ, Nat.mul_comm (256 ^ n) 256, Nat.mod_mul]
    omega

theorem digits_head (n v : Nat) : (digits (n + 1) v).headD 0 = v / 256 ^ n % 256 := by
  induction n generalizing v with
  | zero => simp [digits]
  | succ n ih =>
    rw [digits]
    have hl := digits_length (n + 1) (v / 256)
    have := ih (v / 256)
    cases hd : digits (n + 1) (v / 256) with
    | nil => simp [hd] at hl
    | cons a l =>
      rw [hd] at this; simp only [List.cons_append, List.headD_cons] at this ⊢
      rw [this, Nat.div_div_eq_div_mul, Nat.pow_succ, Nat.mul_comm]

theorem pow_signed (k : Nat) : (2 : Int) ^ (8 * (k + 1) - 1) = 128 * 256 ^ k := by
  have : 8 * (k + 1) - 1 = 7 + 8 * k := by omega
  rw [this, Int.pow_add, Int.pow_mul]; rfl

/-- decoding with the same byte order and signedness inverts a successful encoding -/
theorem fromBytes_toBytes (len : Nat) (little signed : Bool) (v : Int) (b : List Nat)
    (h : toBytes len little signed v = .ok b) : fromBytes little signed b = v ∧ b.length = len := by
  unfold toBytes at h
  cases hr : bytesOverflow len signed v with
  | true => simp [hr] at h
  | false =>
  simp only [hr, Bool.false_eq_true, if_false, Except.ok.injEq] at h
  have hb : (if little then b.reverse else b) = digits len (v % (256 : Int) ^ len).toNat := by
    subst h; cases little <;> simp
  have hlen : b.length = len := by
    have := congrArg List.length hb
    rw [digits_length] at this
    cases little <;> simpa using this
  refine ⟨?_, hlen⟩
  unfold fromBytes
  simp only [hb, digits_fold, digits_length]
  have hN : (0 : Int) < 256 ^ len := Int.pow_pos (by decide)
  have m0 := Int.emod_nonneg v (show (256 : Int) ^ len ≠ 0 by omega)
  have m1 := Int.emod_lt_of_pos v hN
  have hc : ((256 ^ len : Nat) : Int) = (256 : Int) ^ len := by simp
  have hm : (v % (256 : Int) ^ len).toNat % 256 ^ len = (v % (256 : Int) ^ len).toNat :=
    Nat.mod_eq_of_lt (by omega)
  rw [hm]
  cases signed with
  | false =>
    simp only [bytesOverflow, decide_eq_false_iff_not, Bool.false_eq_true, if_false, false_and] at hr ⊢
    rw [Int.emod_eq_of_lt (by omega) (by omega)]
    omega
  | true =>
    simp only [true_and]
    cases len with
    | zero =>
      have : v = 0 := by simpa [bytesOverflow] using hr
      subst this; simp [digits]
    | succ k =>
      rw [digits_head]
      have hr' : ¬ (v < -(128 * 256 ^ k) ∨ 128 * 256 ^ k ≤ v) := by
        have := hr
        simp only [bytesOverflow, pow_signed, decide_eq_false_iff_not] at this
        exact this
      clear hr
      rw [Int.pow_succ] at *
      generalize hP : (256 : Int) ^ k = P at *
      have hPn : ((256 ^ k : Nat) : Int) = P := by rw [← hP]; simp
      generalize hp : (256 ^ k : Nat) = p at *
      subst hPn
      have pp : 0 < p := by omega
      by_cases hv : 0 ≤ v
      · have e : v % ((p : Int) * 256) = v := Int.emod_eq_of_lt hv (by omega)
        rw [e]
        have : v.toNat / p < 128 := by
          rw [Nat.div_lt_iff_lt_mul pp]; omega
        have h2 : ¬ (128 ≤ v.toNat / p % 256) := by rw [Nat.mod_eq_of_lt (by omega)]; omega
        rw [if_neg h2]; omega
      · have e : v % ((p : Int) * 256) = v + (p : Int) * 256 := by
          rw [← Int.add_emod_right]
          exact Int.emod_eq_of_lt (by omega) (by omega)
        rw [e]
        have h1 : 128 ≤ (v + (p : Int) * 256).toNat / p := by
          rw [Nat.le_div_iff_mul_le pp]; omega
        have h3 : (v + (p : Int) * 256).toNat / p < 256 := by
          rw [Nat.div_lt_iff_lt_mul pp]; omega
        have h2 : 128 ≤ (v + (p : Int) * 256).toNat / p % 256 := by rw [Nat.mod_eq_of_lt h3]; exact h1
        rw [if_pos h2]; omega

theorem bitLength_lt (v : Int) : v.natAbs < 2 ^ bitLength v := by
  unfold bitLength
  split
  · subst_vars; decide
  · exact Nat.lt_log2_self

theorem bitLength_le (v : Int) (h : v ≠ 0) : 2 ^ (bitLength v - 1) ≤ v.natAbs := by
  unfold bitLength
  rw [if_neg h]
  exact Nat.log2_self_le (by omega)

/-- **C14.** Without explicit length: unsigned encoding of a non-negative integer, and signed encoding of any integer,
succeed, and decoding gives the integer back. -/
theorem C14_roundtrip (little signed : Bool) (v : Int) (h : signed = true ∨ 0 ≤ v) :
    ∃ b, toBytesArg none little signed (some v) = .ok b ∧ fromBytes little signed b = v := by
  have key : ∃ b, toBytes (autoLength signed v) little signed v = .ok b := by
    have hb := bitLength_lt v
    unfold toBytes
    suffices hs : bytesOverflow (autoLength signed v) signed v = false by
      rw [hs]; exact ⟨_, rfl⟩
    cases signed with
    | false =>
      simp only [bytesOverflow, decide_eq_false_iff_not]
      have hv : 0 ≤ v := by simpa using h
      have hle : 2 ^ bitLength v ≤ 256 ^ autoLength false v := by
        rw [show (256 : Nat) = 2 ^ 8 from rfl, ← Nat.pow_mul]
        exact Nat.pow_le_pow_right (by decide) (by simp [autoLength]; omega)
      have hc : ((256 ^ autoLength false v : Nat) : Int) = (256 : Int) ^ autoLength false v := by simp
      omega
    | true =>
      obtain ⟨k, hk⟩ : ∃ k, autoLength true v = k + 1 := ⟨autoLength true v - 1, by simp [autoLength]; omega⟩
      have hle : 2 ^ bitLength v ≤ 2 ^ (8 * autoLength true v - 1) :=
        Nat.pow_le_pow_right (by decide) (by simp [autoLength]; omega)
      have hc : ((2 ^ (8 * autoLength true v - 1) : Nat) : Int) = (2 : Int) ^ (8 * autoLength true v - 1) := by simp
      rw [hk] at *
      simp only [bytesOverflow, decide_eq_false_iff_not]
      omega
  obtain ⟨b, hb⟩ := key
  exact ⟨b, hb, (fromBytes_toBytes _ _ _ _ _ hb).1⟩

/-- a byte string -/
def IsBytes (b : List Nat) : Prop := ∀ x ∈ b, x < 256

theorem digits_isBytes (n v : Nat) : IsBytes (digits n v) := by
  induction n generalizing v with
  | zero => intro x hx; simp [digits] at hx
  | succ n ih =>
    intro x hx
    simp only [digits, List.mem_append, List.mem_singleton] at hx
    rcases hx with hx | rfl
    · exact ih _ x hx
    · omega

theorem foldl_bound (b : List Nat) (hb : IsBytes b) (a : Nat) : b.foldl (fun a d => a * 256 + d) a < (a + 1) * 256 ^ b.length := by
  induction b generalizing a with
  | nil => simp
  | cons d b ih =>
    have h1 := ih (fun x hx => hb x (.tail _ hx)) (a * 256 + d)
    have hd := hb d (.head _)
    simp only [List.foldl_cons, List.length_cons, Nat.pow_succ]
    have h2 : (a * 256 + d + 1) * 256 ^ b.length ≤ ((a + 1) * 256) * 256 ^ b.length := Nat.mul_le_mul_right _ (by omega)
    have h3 : (a + 1) * 256 * 256 ^ b.length = (a + 1) * (256 ^ b.length * 256) := by rw [Nat.mul_assoc, Nat.mul_comm 256]
    omega

theorem digits_foldl (n : Nat) : ∀ b : List Nat, b.length = n → IsBytes b → digits n (b.foldl (fun a d => a * 256 + d) 0) = b := by
  induction n with
  | zero => intro b hb _; rw [List.length_eq_zero_iff.1 hb]; rfl
  | succ n ih =>
    intro b hb hB
    have hne : b ≠ [] := by intro h; subst h; simp at hb
    have hsplit := List.dropLast_concat_getLast hne
    have hx : b.getLast hne < 256 := hB _ (List.getLast_mem hne)
    have hl : b.dropLast.length = n := by simp [hb]
    have hi := ih b.dropLast hl (fun x hx => hB x ((List.dropLast_sublist b).subset hx))
    generalize b.dropLast = i at *
    generalize b.getLast hne = x at *
    rw [← hsplit]
    simp only [List.foldl_append, List.foldl_cons, List.foldl_nil, digits]
    rw [show (List.foldl (fun a d => a * 256 + d) 0 i * 256 + x) / 256 = List.foldl (fun a d => a * 256 + d) 0 i by omega,
      show (List.foldl (fun a d => a * 256 + d) 0 i * 256 + x) % 256 = x by omega, hi]

/-- encoding inverts decoding -/
theorem toBytes_fromBytes (little signed : Bool) (b : List Nat) (hb : IsBytes b) :
    toBytes b.length little signed (fromBytes little signed b) = .ok b := by
  have key : ∀ b' : List Nat, b' = (if little then b.reverse else b) → toBytes b.length little signed (fromBytes little signed b) = .ok b := by
    intro b' hb'
    have hB : IsBytes b' := by
      intro x hx
      rw [hb'] at hx
      cases little
      · exact hb x hx
      · exact hb x (by simpa using hx)
    have hlen : b'.length = b.length := by rw [hb']; cases little <;> simp
    have hrev : b = if little then b'.reverse else b' := by rw [hb']; cases little <;> simp
    have hn := foldl_bound b' hB 0
    have hd := digits_foldl b'.length b' rfl hB
    unfold fromBytes
    simp only [← hb']
    unfold toBytes
    rw [← hlen]
    generalize hN : List.foldl (fun a d => a * 256 + d) 0 b' = n at *
    have hc : ((256 ^ b'.length : Nat) : Int) = (256 : Int) ^ b'.length := by simp
    have hP : 0 < 256 ^ b'.length := Nat.pow_pos (by decide)
    have hmod : ((if signed = true ∧ 128 ≤ b'.headD 0 then (n : Int) - 256 ^ b'.length else n) % (256 : Int) ^ b'.length).toNat = n := by
      split
      · rw [Int.sub_emod_right, Int.emod_eq_of_lt (by omega) (by omega)]; simp
      · rw [Int.emod_eq_of_lt (by omega) (by omega)]; simp
    have hov : bytesOverflow b'.length signed (if signed = true ∧ 128 ≤ b'.headD 0 then (n : Int) - 256 ^ b'.length else n) = false := by
      cases signed with
      | false =>
        simp only [bytesOverflow, Bool.false_eq_true, false_and, if_false, decide_eq_false_iff_not]
        omega
      | true =>
        cases hk : b'.length with
        | zero =>
          have : b' = [] := List.length_eq_zero_iff.1 hk
          subst this
          simp at hN
          subst hN
          simp [bytesOverflow]
        | succ k =>
          have hh : b'.headD 0 = n / 256 ^ k % 256 := by
            rw [← hd, hk]; exact digits_head k n
          rw [hk] at hn hc hP
          simp only [bytesOverflow, pow_signed, decide_eq_false_iff_not, true_and, hh]
          have hq : n / 256 ^ k < 256 := by
            rw [Nat.div_lt_iff_lt_mul (Nat.pow_pos (by decide))]
            rw [Nat.pow_succ] at hn; omega
          rw [Nat.mod_eq_of_lt hq]
          have hck : ((256 ^ k : Nat) : Int) = (256 : Int) ^ k := by simp
          have hPk : 0 < 256 ^ k := Nat.pow_pos (by decide)
          rw [Nat.pow_succ] at hn hP
          rw [Int.pow_succ, ← hck]
          generalize 256 ^ k = p at *
          by_cases h128 : 128 ≤ n / p
          · rw [if_pos h128]
            rw [Nat.le_div_iff_mul_le hPk] at h128
            omega
          · rw [if_neg h128]
            have : n < 128 * p := by
              rw [← Nat.div_lt_iff_lt_mul hPk]; omega
            omega
    rw [hov]
    simp only [Bool.false_eq_true, if_false, hmod, hd]
    rw [hrev]
  exact key _ rfl

theorem toBytes_iff (len : Nat) (little signed : Bool) (v : Int) (b : List Nat) :
    toBytes len little signed v = .ok b ↔ IsBytes b ∧ b.length = len ∧ fromBytes little signed b = v := by
  constructor
  · intro h
    obtain ⟨h1, h2⟩ := fromBytes_toBytes _ _ _ _ _ h
    refine ⟨?_, h2, h1⟩
    unfold toBytes at h
    split at h
    · cases h
    · simp only [Except.ok.injEq] at h
      subst h
      intro x hx
      cases little
      · exact digits_isBytes _ _ x hx
      · exact digits_isBytes _ _ x (by simpa using hx)
  · rintro ⟨h1, rfl, rfl⟩
    exact toBytes_fromBytes little signed b h1

/-- **C14.** With an explicit length the bytes are the ones of that length that decode to the integer; if there are none,
OverflowError is raised. -/
theorem C14_explicit (len : Nat) (little signed : Bool) (v : Int) :
    (∀ b, toBytesArg (some len) little signed (some v) = .ok b ↔ IsBytes b ∧ b.length = len ∧ fromBytes little signed b = v) ∧
    ((¬ ∃ b, IsBytes b ∧ b.length = len ∧ fromBytes little signed b = v) →
      toBytesArg (some len) little signed (some v) = .error .overflow) := by
  refine ⟨fun b => toBytes_iff len little signed v b, fun h => ?_⟩
  show toBytes len little signed v = .error .overflow
  cases hb : toBytes len little signed v with
  | ok b => exact absurd ⟨b, (toBytes_iff _ _ _ _ _).1 hb⟩ h
  | error e =>
    unfold toBytes at hb
    split at hb
    · exact hb.symm ▸ rfl
    · cases hb

theorem bitLength_le_of {v : Int} {n : Nat} (h : v.natAbs < 2 ^ n) : bitLength v ≤ n := by
  by_cases h0 : v = 0
  · subst h0; simp [bitLength]
  · have h1 := bitLength_le v h0
    have h2 : bitLength v - 1 < n := by
      apply Nat.lt_of_not_le
      intro hn
      have := Nat.pow_le_pow_right (n := 2) (by decide) hn
      omega
    omega

theorem bytesOverflow_of_bytes {little signed : Bool} {b : List Nat} (hb : IsBytes b) :
    bytesOverflow b.length signed (fromBytes little signed b) = false := by
  have h := toBytes_fromBytes little signed b hb
  unfold toBytes at h
  cases ho : bytesOverflow b.length signed (fromBytes little signed b) with
  | false => rfl
  | true => simp [ho] at h

/-- **C14.** In the unsigned case the chosen length is minimal: no shorter byte string decodes to the integer. -/
theorem C14_minimal {little : Bool} {v : Int} {b : List Nat} (h : toBytesArg none little false (some v) = .ok b)
    (little' : Bool) (b' : List Nat) (hb' : IsBytes b') (hv : fromBytes little' false b' = v) : b.length ≤ b'.length := by
  have hl : b.length = autoLength false v := ((toBytes_iff _ _ _ _ _).1 h).2.1
  have ho := bytesOverflow_of_bytes (little := little') (signed := false) hb'
  rw [hv] at ho
  simp only [bytesOverflow, decide_eq_false_iff_not] at ho
  have hc : ((256 ^ b'.length : Nat) : Int) = (256 : Int) ^ b'.length := by simp
  have hp : 256 ^ b'.length = 2 ^ (8 * b'.length) := by rw [Nat.pow_mul]
  have := bitLength_le_of (v := v) (n := 8 * b'.length) (by omega)
  rw [hl]
  simp [autoLength]
  omega

/-- **C14.** In the signed case it is minimal except for 0 and for the lowest number `-(128 * 256^k)` of each length, which
get one byte too many. -/
theorem C14_minimal_signed {little : Bool} {v : Int} {b : List Nat} (h : toBytesArg none little true (some v) = .ok b)
    (little' : Bool) :
    (∀ b', IsBytes b' → fromBytes little' true b' = v → (v ≠ 0 → (∀ k : Nat, v ≠ -(128 * 256 ^ k)) → b.length ≤ b'.length) ∧
      b.length ≤ b'.length + 1) ∧
    (v = 0 ∨ (∃ k : Nat, v = -(128 * 256 ^ k)) → ∃ b', IsBytes b' ∧ fromBytes little' true b' = v ∧ b'.length + 1 = b.length) := by
  have hl : b.length = autoLength true v := ((toBytes_iff _ _ _ _ _).1 h).2.1
  have pow8 : ∀ k : Nat, 128 * 256 ^ k = 2 ^ (8 * k + 7) := by
    intro k; rw [Nat.pow_add, Nat.pow_mul, Nat.mul_comm]
  refine ⟨fun b' hb' hv => ?_, fun hx => ?_⟩
  · have ho := bytesOverflow_of_bytes (little := little') (signed := true) hb'
    rw [hv] at ho
    rw [hl]
    cases hm : b'.length with
    | zero =>
      rw [hm] at ho
      have : v = 0 := by simpa [bytesOverflow] using ho
      subst this
      exact ⟨fun h => absurd rfl h, by decide⟩
    | succ k =>
      rw [hm] at ho
      simp only [bytesOverflow, pow_signed, decide_eq_false_iff_not] at ho
      have hck : ((256 ^ k : Nat) : Int) = (256 : Int) ^ k := by simp
      have p8 := pow8 k
      constructor
      · intro h0 hk
        have hk := hk k
        have := bitLength_le_of (v := v) (n := 8 * k + 7) (by omega)
        simp [autoLength]; omega
      · have hle : v.natAbs < 2 ^ (8 * k + 8) := by
          rw [Nat.pow_succ]
          have : 0 < 2 ^ (8 * k + 7) := Nat.pow_pos (by decide)
          omega
        have := bitLength_le_of hle
        simp [autoLength]; omega
  · rcases hx with rfl | ⟨k, rfl⟩
    · refine ⟨[], fun x hx => by simp at hx, by cases little' <;> rfl, ?_⟩
      rw [hl]; rfl
    · have hno : bytesOverflow (k + 1) true (-(128 * 256 ^ k)) = false := by
        have hck : ((256 ^ k : Nat) : Int) = (256 : Int) ^ k := by simp
        have hP : 0 < 256 ^ k := Nat.pow_pos (by decide)
        simp only [bytesOverflow, pow_signed, decide_eq_false_iff_not]
        omega
      obtain ⟨b', hb'⟩ : ∃ b', toBytes (k + 1) little' true (-(128 * 256 ^ k)) = .ok b' := by
        unfold toBytes; rw [hno]; exact ⟨_, rfl⟩
      obtain ⟨h1, h2, h3⟩ := (toBytes_iff _ _ _ _ _).1 hb'
      refine ⟨b', h1, h3, ?_⟩
      rw [h2, hl]
      have habs : (-(128 * 256 ^ k) : Int).natAbs = 2 ^ (8 * k + 7) := by
        have hck : ((256 ^ k : Nat) : Int) = (256 : Int) ^ k := by simp
        have := pow8 k
        omega
      have hb1 := bitLength_lt (-(128 * 256 ^ k))
      rw [habs] at hb1
      have hb2 : 8 * k + 7 < bitLength (-(128 * 256 ^ k)) := by
        apply Nat.lt_of_not_le
        intro hn
        have := Nat.pow_le_pow_right (n := 2) (by decide) hn
        omega
      have hb3 := bitLength_le_of (v := -(128 * 256 ^ k)) (n := 8 * k + 8) (by
        rw [habs]; exact Nat.pow_lt_pow_right (by decide) (by omega))
      simp [autoLength]; omega

/-- hypotheses met: -128 gets two bytes although one would do -/
example : toBytesArg none false true (some (-128)) = .ok [255, 128] ∧ fromBytes false true [128] = -128 ∧
    toBytesArg (some 1) false true (some (-128)) = .ok [128] ∧ toBytesArg (some 1) false true (some 128) = .error .overflow ∧
    toBytesArg (some 3) true false (some 258) = .ok [2, 1, 0] := by
  refine ⟨?_, ?_, ?_, ?_, ?_⟩ <;> rfl

/-- **C14.** Negative integers without `signed` raise OverflowError (for any length), other inputs TypeError. -/
theorem C14_rejects (little signed : Bool) (len : Option Nat) (v : Int) (h : v < 0) :
    toBytesArg len little false (some v) = .error .overflow ∧ toBytesArg len little signed none = .error .typeError := by
  refine ⟨?_, rfl⟩
  cases len <;> simp [toBytesArg, toBytes, bytesOverflow, h]

/-- hypotheses met, with the values CPython gives -/
example : toBytesArg none false false (some 1000) = .ok [3, 232] ∧ toBytesArg none false true (some (-129)) = .ok [255, 127] ∧
    toBytesArg none false false (some 0) = .ok [] ∧ toBytesArg none true true (some 128) = .ok [128, 0] := by
  refine ⟨?_, ?_, ?_, ?_⟩ <;> rfl

/-! ## C15 -/

/-- `x` denotes the whole number `i`: a fraction equal to `i`, or a complex number with zero imaginary part whose real
part is `i` -/
inductive Num.IsWhole : Num → Int → Prop
  | rational (n : Int) (d : Nat) (i : Int) : n = i * d → IsWhole (.rational n d) i
  | complex (re : Num) (i : Int) : IsWhole re i → IsWhole (.complex re true) i

/-- numbers without floats; fractions in lowest terms, as Python keeps them -/
inductive Num.Exact : Num → Prop
  | rational (n : Int) (d : Nat) : 0 < d → Nat.gcd n.natAbs d = 1 → Exact (.rational n d)
  | complex (re : Num) (b : Bool) : Exact re → Exact (.complex re b)
  | other : Exact .other

/-- **C15.** Without floats, `Whole` calls the target with `i` iff the input is the whole number `i`, and raises
TypeError if it is no whole number. -/
theorem C15_whole (x : Num) (hx : x.Exact) :
    (∀ i, whole x = .ok (.int i) ↔ x.IsWhole i) ∧ ((∀ i, ¬ x.IsWhole i) → whole x = .error .typeError) := by
  induction hx with
  | rational n d hd hg =>
    have key : ∀ i, n = i * d → d = 1 := by
      intro i hi
      have : d ∣ n.natAbs := by
        exact Int.natCast_dvd_natCast.1 (by rw [Int.dvd_natAbs]; exact ⟨i, by rw [hi, Int.mul_comm]⟩)
      have := Nat.dvd_gcd this (Nat.dvd_refl d)
      rw [hg] at this
      exact Nat.dvd_one.1 this
    constructor
    · intro i
      constructor
      · intro h
        unfold whole at h
        split at h
        · rename_i h1; subst h1; cases h; exact .rational _ _ _ (by simp)
        · cases h
      · rintro ⟨_, _, _, h⟩
        have := key i h; subst this
        simp [whole, h]
    · intro h
      unfold whole
      rw [if_neg]
      rintro rfl
      exact h n (.rational _ _ _ (by simp))
  | complex re b _ ih =>
    cases b with
    | true =>
      simp only [whole, if_true]
      refine ⟨fun i => (ih.1 i).trans ⟨.complex _ _, fun h => by cases h; assumption⟩, fun h => ih.2 fun i hi => h i (.complex _ _ hi)⟩
    | false =>
      simp only [whole]
      refine ⟨fun i => ⟨?_, ?_⟩, fun _ => rfl⟩
      · intro h; cases h
      · intro h; cases h
  | other =>
    refine ⟨fun i => ⟨?_, ?_⟩, fun _ => rfl⟩
    · intro h; cases h
    · intro h; cases h

/-- hypotheses met: 4/1, 3/2, and the complex number 4+0j with exact real part -/
example : (Num.rational 4 1).Exact ∧ (Num.rational 3 2).Exact ∧ (Num.complex (.rational 4 1) true).IsWhole 4 ∧
    whole (.complex (.rational 4 1) true) = .ok (.int 4) ∧ whole (.rational 3 2) = .error .typeError :=
  ⟨.rational _ _ (by decide) (by decide), .rational _ _ (by decide) (by decide), .complex _ _ (.rational _ _ _ rfl), rfl, rfl⟩

/-! ## C16 -/

/-- **C16.** `FromInteger` (on a bool filler) maps values equal to 0 to False, values equal to 1 to True, and rejects the
rest; no state changes. On any other filler binding it raises TypeError. -/
theorem C16_from_integer (h01 : ∀ v, W.eq v W.zero = true → W.eq v W.one = false) (origin : Option W.Cls) :
    (∃ f, getCoercer (W := W) true origin .fromInteger = .ok f ∧ ∀ v s,
      (W.eq v W.zero = true → f v s = (.ok (W.bool false), s)) ∧
      (W.eq v W.one = true → f v s = (.ok (W.bool true), s)) ∧
      (W.eq v W.zero = false → W.eq v W.one = false → f v s = (.error .typeError, s))) ∧
    getCoercer (W := W) false origin .fromInteger = .error .typeError := by
  refine ⟨⟨boolFromInt, by simp [getCoercer], fun v s => ⟨?_, ?_, ?_⟩⟩, by simp [getCoercer]⟩
  · intro h; simp [boolFromInt, h, M.pure]
  · intro h
    have : W.eq v W.zero = false := by
      cases hz : W.eq v W.zero with
      | false => rfl
      | true => rw [h01 v hz] at h; cases h
    simp [boolFromInt, h, this, M.pure]
  · intro h h'; simp [boolFromInt, h, h', M.throw]

/-- **C16.** `Falsish` calls the target type, without the input, iff the input is falsish; otherwise it raises TypeError
and calls nothing. -/
theorem C16_falsish (c : W.Cls) (args : List W.Obj) (kw : List (String × W.Obj)) (v : W.Obj) (s : LState W) :
    (W.truthy v = false → falsish c args kw v s =
      ((W.construct c args kw s.user).1, { s with user := (W.construct c args kw s.user).2 })) ∧
    (W.truthy v = true → falsish c args kw v s = (.error .typeError, s)) := by
  constructor <;> intro h <;> simp [falsish, h, M.lift, M.throw]

/-- hypotheses met -/
example : (∀ v, Toy.W.eq v Toy.W.zero = true → Toy.W.eq v Toy.W.one = false) ∧
    boolFromInt (W := Toy.W) (.bool true) Toy.s0 = (.ok (.bool true), Toy.s0) ∧
    falsish (W := Toy.W) .list [] [] .none Toy.s0 = (.ok (Toy.list []), Toy.s0) := by
  refine ⟨?_, rfl, rfl⟩
  intro v
  show Toy.eq v (.int 0) = true → Toy.eq v (.int 1) = false
  unfold Toy.eq
  cases v <;> simp [Toy.num] <;> intros <;> simp_all

/-! ## C17 -/

/-- the constructor is called with these arguments and its outcome is the outcome -/
def Calls (r : M W W.Obj) (c : W.Cls) (args : List W.Obj) (kw : List (String × W.Obj)) : Prop :=
  ∀ s, r s = ((W.construct c args kw s.user).1, { s with user := (W.construct c args kw s.user).2 })

/-- TypeError is raised and nothing is called -/
def Rejects (r : M W W.Obj) : Prop := ∀ s, r s = (.error .typeError, s)

/-- `v` is an instance of the constraint -/
def TypeCon.Inst (t : TypeCon W) (v : W.Obj) : Prop :=
  match t with
  | .one c => W.isInstance v c = true
  | .many cs => ∃ c ∈ cs, W.isInstance v c = true

theorem TypeCon.holds_iff (t : TypeCon W) (v : W.Obj) : t.holds v = true ↔ t.Inst v := by
  cases t <;> simp [holds, Inst, World.isInstanceAny]

/-- **C17**, `Loose.constrain(t)`: calls the constructor iff the input is an instance of the constraint; the constraint
must not be the empty tuple. -/
theorem C17_loose (t : TypeCon W) (ht : ∀ l, t = .many l → l ≠ []) (c : W.Cls) (args : List W.Obj)
    (kw : List (String × W.Obj)) (v : W.Obj) :
    (t.Inst v → Calls (loose (some t) c args kw v) c (v :: args) kw) ∧
    (¬ t.Inst v → Rejects (loose (some t) c args kw v)) := by
  have htr : t.truth = true := by
    cases t with
    | one => rfl
    | many l => have := ht l rfl; cases l <;> simp_all [TypeCon.truth]
  rw [← TypeCon.holds_iff]
  constructor
  · intro h s; simp [loose, h, M.lift]
  · intro h s; simp [loose, htr, h, M.throw]

/-- **C17**, exception: a `Loose` constrained by the empty tuple accepts every input although none is an instance of
it. -/
theorem C17_loose_empty_tuple (c : W.Cls) (args : List W.Obj) (kw : List (String × W.Obj)) (v : W.Obj) :
    Calls (loose (some (.many [])) c args kw v) c (v :: args) kw ∧ ¬ (TypeCon.many (W := W) []).Inst v := by
  constructor
  · intro s; simp [loose, TypeCon.truth, M.lift]
  · simp [TypeCon.Inst]

/-- **C17**, `LooseUnpack.constrain(t, ...)`: every element must be an instance. -/
theorem C17_unpack_each (t : TypeCon W) (c : W.Cls) (args : List W.Obj) (kw : List (String × W.Obj)) (v : W.Obj)
    (hv : W.isIterable v = true) :
    ((∀ i ∈ W.elems v, t.Inst i) → Calls (looseUnpack (some (.each t)) c args kw v) c (W.elems v ++ args) kw) ∧
    (¬ (∀ i ∈ W.elems v, t.Inst i) → Rejects (looseUnpack (some (.each t)) c args kw v)) := by
  have e : ((W.elems v).any fun i => !t.holds i) = true ↔ ¬ (∀ i ∈ W.elems v, t.Inst i) := by
    simp only [← TypeCon.holds_iff, List.any_eq_true]
    simp
  constructor
  · intro h s
    have : ((W.elems v).any fun i => !t.holds i) = false := by
      rw [← Bool.not_eq_true, e]; exact fun hn => hn h
    simp [looseUnpack, hv, this, M.lift]
  · intro h s
    simp only [looseUnpack, hv, e.2 h, M.throw]; rfl

/-- **C17**, `LooseUnpack.constrain(t1, ..., tn)`: exactly `n` elements, each an instance of its constraint. -/
theorem C17_unpack_fixed (ts : List (TypeCon W)) (c : W.Cls) (args : List W.Obj) (kw : List (String × W.Obj))
    (v : W.Obj) (hv : W.isIterable v = true) :
    (AllRel (fun i t => TypeCon.Inst t i) (W.elems v) ts →
      Calls (looseUnpack (some (.fixed ts)) c args kw v) c (W.elems v ++ args) kw) ∧
    (¬ AllRel (fun i t => TypeCon.Inst t i) (W.elems v) ts → Rejects (looseUnpack (some (.fixed ts)) c args kw v)) := by
  have e : ∀ (l : List W.Obj) (ts : List (TypeCon W)),
      (decide (l.length ≠ ts.length) || (l.zip ts).any fun p => !p.2.holds p.1) = false ↔
        AllRel (fun i t => TypeCon.Inst t i) l ts := by
    intro l
    induction l with
    | nil =>
      intro ts; cases ts with
      | nil => exact ⟨fun _ => .nil, fun _ => rfl⟩
      | cons => exact ⟨fun h => by simp at h, fun h => by cases h⟩
    | cons a l ih =>
      intro ts; cases ts with
      | nil => exact ⟨fun h => by simp at h, fun h => by cases h⟩
      | cons t ts =>
        have := ih ts
        constructor
        · intro h
          simp at h
          refine .cons ((TypeCon.holds_iff t a).1 h.2.1) (this.1 ?_)
          simp [h.1]; exact fun x y hxy => h.2.2 x y hxy
        · rintro (_ | ⟨h1, h2⟩)
          have h2 := this.2 h2
          simp at h2 ⊢
          exact ⟨h2.1, (TypeCon.holds_iff t a).2 h1, h2.2⟩
  constructor
  · intro h s
    have := (e _ _).2 h
    simp only [looseUnpack, hv, this, M.lift]; rfl
  · intro h s
    have : (decide ((W.elems v).length ≠ ts.length) || ((W.elems v).zip ts).any fun p => !p.2.holds p.1) = true := by
      rw [← Bool.not_eq_false, e]; exact h
    simp only [looseUnpack, hv, this, M.throw]; rfl

/-- every entry of the mapping has a known key and a value that is an instance of that key's constraint -/
def UnpackMapOk (cons : List (String × TypeCon W)) (l : List (W.Obj × W.Obj)) : Prop :=
  ∀ k a, (k, a) ∈ l → ∃ n t, W.strOf k = some n ∧ Dict.get? cons n = some t ∧ t.Inst a

theorem unpackMapCheck_iff (cons : List (String × TypeCon W)) (l : List (W.Obj × W.Obj)) :
    unpackMapCheck cons l = true ↔ UnpackMapOk cons l := by
  induction l with
  | nil => simp [unpackMapCheck, UnpackMapOk]
  | cons p l ih =>
    obtain ⟨k, a⟩ := p
    unfold unpackMapCheck
    have hsplit : UnpackMapOk cons ((k, a) :: l) ↔
        (∃ n t, W.strOf k = some n ∧ Dict.get? cons n = some t ∧ t.Inst a) ∧ UnpackMapOk cons l := by
      constructor
      · intro h; exact ⟨h k a (by simp), fun k' a' hm => h k' a' (by simp [hm])⟩
      · rintro ⟨h1, h2⟩ k' a' hm
        rcases List.mem_cons.1 hm with h | h
        · cases h; exact h1
        · exact h2 k' a' h
    rw [hsplit]
    cases hk : W.strOf k with
    | none => simp
    | some n =>
      cases hg : Dict.get? cons n with
      | none => simp [hg]
      | some t =>
        cases ht : t.holds a with
        | false =>
          have : ¬ t.Inst a := by rw [← TypeCon.holds_iff]; simp [ht]
          simp [hg, ht, this]
        | true =>
          have : t.Inst a := (TypeCon.holds_iff _ _).1 ht
          simp [hg, ht, this, ih]

/-- the mapping as keyword arguments -/
inductive KwArgs : List (W.Obj × W.Obj) → List (String × W.Obj) → Prop
  | nil : KwArgs [] []
  | cons {k a n l m} : W.strOf k = some n → KwArgs l m → KwArgs ((k, a) :: l) ((n, a) :: m)

theorem kwOf_iff (l : List (W.Obj × W.Obj)) (m : List (String × W.Obj)) : kwOf l = some m ↔ KwArgs l m := by
  induction l generalizing m with
  | nil => exact ⟨fun h => by cases h; exact .nil, fun h => by cases h; rfl⟩
  | cons p l ih =>
    obtain ⟨k, a⟩ := p
    unfold kwOf
    constructor
    · intro h
      split at h
      · rename_i n r h1 h2; cases h; exact .cons h1 ((ih _).1 h2)
      · cases h
    · rintro (_ | ⟨h1, h2⟩)
      rw [h1, (ih _).2 h2]

theorem kwArgs_of_ok {cons : List (String × TypeCon W)} {l : List (W.Obj × W.Obj)} (h : UnpackMapOk cons l) :
    ∃ m, KwArgs l m := by
  induction l with
  | nil => exact ⟨[], .nil⟩
  | cons p l ih =>
    obtain ⟨k, a⟩ := p
    obtain ⟨n, t, h1, _⟩ := h k a (by simp)
    obtain ⟨m, hm⟩ := ih fun k' a' hm => h k' a' (by simp [hm])
    exact ⟨(n, a) :: m, .cons h1 hm⟩

/-- **C17**, `LooseUnpackMap.constrain(...)`: the constructor is called (with the mapping as keyword arguments) iff every
entry has a known key and a fitting value and no key repeats one of the token's own keyword arguments; otherwise
TypeError and no call.  Constrained keys that are absent from the input are not required. -/
theorem C17_unpack_map (cons : List (String × TypeCon W)) (c : W.Cls) (args : List W.Obj) (kw : List (String × W.Obj))
    (v : W.Obj) (hv : W.isMapping v = true) :
    (∀ m, KwArgs (W.items v) m → UnpackMapOk cons (W.items v) → (∀ p ∈ m, ∀ q ∈ kw, p.1 ≠ q.1) →
      Calls (looseUnpackMap (some cons) c args kw v) c args (m ++ kw)) ∧
    (¬ UnpackMapOk cons (W.items v) → Rejects (looseUnpackMap (some cons) c args kw v)) ∧
    (∀ m, KwArgs (W.items v) m → ¬ (∀ p ∈ m, ∀ q ∈ kw, p.1 ≠ q.1) →
      Rejects (looseUnpackMap (some cons) c args kw v)) := by
  refine ⟨?_, ?_, ?_⟩
  · intro m hm hok hd s
    have : (m.any fun p => kw.any fun q => p.1 == q.1) = false := by
      rw [← Bool.not_eq_true]; intro hh
      simp only [List.any_eq_true, beq_iff_eq] at hh
      obtain ⟨p, hp, q, hq, he⟩ := hh
      exact hd p hp q hq he
    simp only [looseUnpackMap, hv, (unpackMapCheck_iff _ _).2 hok, looseUnpackMap.call, (kwOf_iff _ _).2 hm, this,
      M.lift]; rfl
  · intro hok s
    have : unpackMapCheck cons (W.items v) = false := by rw [← Bool.not_eq_true, unpackMapCheck_iff]; exact hok
    simp only [looseUnpackMap, hv, this, M.throw]; rfl
  · intro m hm hd s
    have : (m.any fun p => kw.any fun q => p.1 == q.1) = true := by
      cases hh : (m.any fun p => kw.any fun q => p.1 == q.1) with
      | true => rfl
      | false =>
        refine (hd fun p hp q hq he => ?_).elim
        have := List.any_eq_false.1 hh p hp
        exact this (List.any_eq_true.2 ⟨q, hq, by simp [he]⟩)
    cases hok : unpackMapCheck cons (W.items v) <;>
      simp only [looseUnpackMap, hv, hok, looseUnpackMap.call, (kwOf_iff _ _).2 hm, this, M.throw] <;> rfl

/-- **C17.** All loose coercers refuse abstract classes and non-classes when the token is bound. -/
theorem C17_only_concrete (o : Option W.Cls) (c : W.Cls) :
    (looseBind o = .ok c ↔ o = some c ∧ W.isAbstract c = false) ∧
    (o = none → looseBind o = .error .typeError) ∧ (W.isAbstract c = true → looseBind (some c) = .error .typeError) := by
  refine ⟨?_, fun h => by subst h; rfl, fun h => by simp [looseBind, h]⟩
  cases o with
  | none => simp [looseBind]
  | some d =>
    cases h : W.isAbstract d
    · simp [looseBind, h]; rintro rfl; exact h
    · simp [looseBind, h]; rintro rfl; exact h

/-- hypotheses met: `int` on a constrained string, a rejected element, and a mapping with an unmentioned constraint -/
example : loose (W := Toy.W) (some (.one .str)) .int [] [] (.str "5") Toy.s0 = (.ok (.int 5), Toy.s0) ∧
    (TypeCon.one (W := Toy.W) .str).Inst (.str "5") ∧
    looseUnpack (W := Toy.W) (some (.fixed [.one .int, .one .str])) .int [] [] (Toy.list [.int 1]) Toy.s0 =
      (.error .typeError, Toy.s0) ∧
    UnpackMapOk (W := Toy.W) [("a", .one .int), ("b", .one .int)] (Toy.W.items (Toy.dict [(.str "a", .int 1)])) := by
  refine ⟨rfl, rfl, rfl, ?_⟩
  rw [← unpackMapCheck_iff]; rfl

/-! ## C18 -/

/-- **C18.** Provided evaluating a string literal gives a shorter string (or no string), the loop ends for every input;
the outcome is determined; and the result is never a string. -/
theorem C18_literal_eval (lit : String → Except Exc W.Obj)
    (hlit : ∀ t w t', lit t = .ok w → W.strOf w = some t' → t'.length < t.length) (v : W.Obj) :
    (∃ r, LitRun lit v r) ∧ (∀ r r', LitRun lit v r → LitRun lit v r' → r = r') ∧
    (∀ w, LitRun lit v (.ok w) → W.strOf w = none) := by
  have term : ∀ n v, (∀ t, W.strOf v = some t → t.length < n) → ∃ r, LitRun lit v r := by
    intro n
    induction n with
    | zero =>
      intro v h
      cases hs : W.strOf v with
      | none => exact ⟨_, .done v hs⟩
      | some t => exact absurd (h t hs) (by omega)
    | succ n ih =>
      intro v h
      cases hs : W.strOf v with
      | none => exact ⟨_, .done v hs⟩
      | some t =>
        cases hl : lit t with
        | error e =>
          by_cases he : e.kind = .valueError
          · exact ⟨_, .valueError v t e hs hl he⟩
          · exact ⟨_, .other v t e hs hl he⟩
        | ok w =>
          obtain ⟨r, hr⟩ := ih w fun t' ht' => by
            have := hlit t w t' hl ht'
            have := h t hs
            omega
          exact ⟨r, .step v t w r hs hl hr⟩
  refine ⟨?_, ?_, ?_⟩
  · cases hs : W.strOf v with
    | none => exact ⟨_, .done v hs⟩
    | some t => exact term (t.length + 1) v fun t' ht' => by rw [hs] at ht'; cases ht'; omega
  · intro r r' h
    induction h with
    | done v hs => intro h'; cases h' <;> simp_all
    | step v t w r hs hl _ ih =>
      intro h'
      cases h' with
      | step => simp_all
      | done => simp_all
      | valueError => simp_all
      | other => simp_all
    | valueError v t e hs hl he =>
      intro h'
      cases h' with
      | step => simp_all
      | done => simp_all
      | valueError => rfl
      | other => simp_all
    | other v t e hs hl he =>
      intro h'
      cases h' with
      | step => simp_all
      | done => simp_all
      | valueError => simp_all
      | other => simp_all
  · intro w h
    generalize hr : Except.ok w = r at h
    induction h with
    | done v hs => cases hr; exact hs
    | step _ _ _ _ _ _ _ ih => exact ih hr
    | valueError => cases hr
    | other => cases hr

/-- a toy `literal_eval`: `'"5"'` is the string `5`, `5` is the number -/
def toyLit : String → Except Exc Toy.TObj
  | "\"5\"" => .ok (.str "5")
  | "5" => .ok (.int 5)
  | _ => .error .valueError

/-- hypotheses met: a doubly quoted number takes two rounds -/
example : (∀ t w t', toyLit t = .ok w → Toy.W.strOf w = some t' → t'.length < t.length) ∧
    LitRun (W := Toy.W) toyLit (.str "\"5\"") (.ok (.int 5)) := by
  constructor
  · intro t w t' h h'
    unfold toyLit at h
    split at h
    · cases h; simp only [Toy.W] at h'; cases h'; decide
    · cases h; simp only [Toy.W] at h'; cases h'
    · cases h
  · exact .step _ _ _ _ rfl rfl (.step _ _ _ _ rfl rfl (.done _ rfl))

/-! ## C86 -/

/-- **C86.** `Eval` evaluates strings only; whatever `Exception` evaluation raises becomes a TypeError (so the next
coercer is tried), other exceptions propagate; effects of the evaluation persist. -/
theorem C86_eval (ev : String → M W W.Obj) (v : W.Obj) (s : LState W) :
    (W.strOf v = none → evalCoercer ev v s = (.error .typeError, s)) ∧
    (∀ t r s', W.strOf v = some t → ev t s = (.ok r, s') → evalCoercer ev v s = (.ok r, s')) ∧
    (∀ t e s', W.strOf v = some t → ev t s = (.error e, s') →
      evalCoercer ev v s = (.error (if e.isException then .typeError else e), s')) := by
  refine ⟨?_, ?_, ?_⟩
  · intro h; simp [evalCoercer, h, M.throw]
  · intro t r s' h h'; simp [evalCoercer, h, M.tryExcept, h']
  · intro t e s' h h'; cases he : e.isException <;> simp [evalCoercer, h, M.tryExcept, h', M.throw, he]

/-- both failing and succeeding evaluations exist -/
example : evalCoercer (W := Toy.W) (fun t => if t = "1" then M.pure (.int 1) else M.throw .zeroDivision) (.str "1/0") Toy.s0 =
      (.error .typeError, Toy.s0) ∧
    evalCoercer (W := Toy.W) (fun t => if t = "1" then M.pure (.int 1) else M.throw .zeroDivision) (.str "1") Toy.s0 =
      (.ok (.int 1), Toy.s0) := ⟨rfl, rfl⟩

end Records

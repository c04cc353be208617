"""Writes /verif/properties.jsonl.  One P(...) call per property."""
import json, os
OUT = os.path.join(os.path.dirname(__file__), '..', 'properties.jsonl')
rows = []

def P(id, title, statement, quantifier, why, *anchors):
    rows.append(dict(id=id, title=title, statement=statement, quantifier=quantifier,
                     why_tests_cant=why, anchors=list(anchors)))

SEL = 'records/select.py'; REC = 'records/record.py'; FIL = 'records/fillers/filler.py'
TYP = 'records/fillers/builtin_fillers/typing_fillers.py'; STD = 'records/fillers/builtin_fillers/std_fillers.py'
VAL = 'records/fillers/validators.py'; BV = 'records/fillers/builtin_validators.py'
COE = 'records/fillers/coercers.py'; FLD = 'records/field.py'; GET = 'records/fillers/get_filler.py'

# ---------------------------------------------------------------- Select
P('C01', 'Applying a Select is the documented sequence of map edits',
  'Calling a non-empty Select on a mapping performs, in this order, all removes, maybe-removes, renames, maybe-renames, adds and maybe-adds; each single edit acts on the mapping as an abstract key->value function (remove of a missing key and rename of a missing key raise KeyError, rename/maybe-rename onto a present key and add of a present key raise ValueError, the maybe- forms of remove/rename skip a missing source, maybe-add skips a present key); the first edit that fails decides the exception, and an empty Select returns the mapping unchanged.',
  'every Select (any number of entries in the six lists, including repeated and chained keys) and every mapping',
  'The six edit lists interact (a rename can target a key removed earlier, be renamed again, or be re-added); a test fixes one combination, the claim is about all list contents and lengths.',
  f'{SEL}:Select.__call__', f'{SEL}:Select.__init__')
P('C02', 'A Select never silently loses or overwrites an entry',
  'If applying a Select succeeds, then every key mentioned nowhere in the Select keeps its value; every value in the result is either a value of the input mapping or a value from the (maybe-)add lists; and the number of entries is exactly input - removes - performed maybe-removes + adds + performed maybe-adds (renames neither lose nor duplicate an entry).',
  'every Select and every mapping with distinct keys on which the call succeeds',
  'Loss or overwriting only shows for particular collisions between input keys and edit lists; conservation is a universally quantified counting statement.',
  f'{SEL}:Select.__call__')
P('C03', 'Merging Selects is associative, has the empty Select as identity, and chained .select() calls equal one merged select',
  'merge concatenates the six edit lists position-wise; (a.merge(b)).merge(c) acts like a.merge(b.merge(c)), merging with the empty Select on either side changes nothing, and factory.select(a).select(b)(x) gives the same outcome as factory.select(a, b)(x) and factory.select(a.merge(b))(x); calling merge with no arguments raises TypeError.',
  'all Selects, all chains of select calls of any length, all inputs',
  'An algebraic law over all operands; tests check a handful of merges.',
  f'{SEL}:Select._merge', f'{SEL}:Select.merge', f'{SEL}:SelectableFactory.Bound.select', f'{SEL}:Exporter.Bound.select')
P('C04', 'A Select is immutable: using it repeatedly always has the same effect',
  'For a Select built from re-iterable arguments (tuples, lists, mappings, strings), any sequence of truth tests, merges and applications leaves later applications with the same outcome as the first. A new Select is true iff any of its arguments has an entry, also for iterators, and the answer never changes. (The signature accepts any Iterable; for one-shot iterators the property is false: the truth test eats the first entry and the first application exhausts the rest.)',
  'every history of uses of one Select object',
  'The failure needs a one-shot iterator and a history of at least one earlier use; the positive half quantifies over all histories.',
  f'{SEL}:Select.__bool__', f'{SEL}:Select.__call__', f'{SEL}:Select._merge')
P('C05', 'Selected construction from mappings never modifies the caller\'s mapping',
  'from_mapping with any Select leaves every mapping passed in unchanged, whether the call succeeds or raises; Select called directly on a dict edits that dict in place (also when it raises half-way), and on a non-dict mapping works on a copy.',
  'every Select, every list of mappings, every point at which an edit may raise',
  'Mutation of the argument after a partially failed edit list is only visible for specific failure points; the claim covers all of them.',
  f'{SEL}:Select.__call__', f'{SEL}:SelectableFactory.run', f'{REC}:RecordBase.from_mapping')
P('C06', 'keys_to_maybe_rename: exact behaviour, contrary to its documentation',
  'A maybe-rename entry performs exactly the rename if the old name is present and the new one absent, is skipped iff the old name is absent, and raises ValueError iff both are present. (The documented behaviour, that it is skipped if the new name already exists, is refuted by a counterexample.)',
  'every mapping and every maybe-rename entry',
  'A disagreement between documentation and code at one corner of the case split; only a complete case analysis establishes what does hold.',
  f'{SEL}:Select.__init__', f'{SEL}:Select.__call__')
P('C07', 'When a merged Select equals applying the Selects one after the other',
  'Applying a.merge(b) has the same outcome (result, exception, and effect on the dict edited in place) as applying a and then b whenever no kind of edit used by b comes, in the execution order remove, maybe-remove, rename, maybe-rename, add, maybe-add, before a kind used by a; in general it does not (renames of a run after removes of b).',
  'all Selects meeting the stated shape, all mappings',
  'An equality of two programs over all inputs.',
  f'{SEL}:Select._merge', f'{SEL}:Select.__call__')

# ---------------------------------------------------------------- validators
P('C08', 'Clamp brings every value to the nearest bound',
  'For accepted bounds (constructor raises ValueError iff lower > upper) Clamp returns a value within the given bounds, returns the value itself if it already lies within, is idempotent and monotone, and with a missing bound does not constrain that side.',
  'all values and bounds of any linearly ordered type',
  'Ordered domains are infinite; boundary and missing-bound combinations multiply.',
  f'{BV}:Clamp', f'{BV}:_Least', f'{BV}:_Greatest')
P('C09', 'Cyclic maps every integer to its unique representative in [minimum, maximum)',
  'For minimum < maximum the result lies in [minimum, maximum), differs from the input by a multiple of (maximum - minimum), is the only such number, and equals the input if it was already inside; minimum = maximum raises ZeroDivisionError for every input; minimum > maximum is accepted by the constructor and yields values in (maximum, minimum].',
  'all integers, all bounds',
  'Python floor-modulo of negative numbers and boundary values over an infinite domain.',
  f'{BV}:Cyclic')
P('C10', 'Within accepts exactly the interval described by its flags',
  'Within passes a value iff it satisfies the lower bound (strict iff g_eq=False) and the upper bound (inclusive iff l_eq=True), missing bounds accept everything; the constructor raises ValueError iff lower > upper or (lower == upper and not both bounds are inclusive). By default the lower bound is inclusive and the upper one exclusive.',
  'all values and bounds of any linearly ordered type and all flag combinations',
  'Infinite domain times flags.',
  f'{BV}:Within')
P('C11', 'Assertion validators never change the value and fail exactly when the condition fails',
  'An assertion validator returns its argument unchanged if the condition holds; if it does not hold it raises (the given exception instance, or ValueError) when warn is off, and with warn on it emits exactly one warning and returns the value unchanged.',
  'every condition, every value, every err/warn configuration',
  'Universally quantified over user predicates.',
  f'{VAL}:AssertValidation', f'{VAL}:AssertCallValidation', f'{BV}:Truth')

# ---------------------------------------------------------------- coercers
P('C12', 'ComposeCoercer composes right-to-left',
  'ComposeCoercer(t1,...,tn) behaves as v -> t1(t2(...tn(v))): an exception of an inner coercer stops the chain and propagates with no later coercer being called; composing one coercer is that coercer, and nesting composes associatively.',
  'all lists of coercers with arbitrary effects, all inputs',
  'Quantifies over lists of arbitrary length and arbitrary user callables.',
  f'{COE}:ComposeCoercer')
P('C13', 'MapCoercion looks up values first, then factories, and rejects everything else',
  'A MapCoercion returns the mapped value if the key is in value_map (no factory is called), otherwise calls exactly the factory stored under the key, otherwise raises TypeError. Entries are looked up when a value is coerced, so later changes of the mappings count, but a mapping that is empty when the token is made counts as absent for ever. (That the token always looks into the mapping as it is is refuted by a counterexample: d = {}; MapCoercion(d); d[1] = 2.)',
  'all maps and inputs', 'All key/value combinations including overlap of the two maps.',
  f'{COE}:MapCoercion')
P('C14', 'ToBytes without explicit length never overflows, loses no information and wastes no bytes',
  'For every non-negative integer (unsigned) and every integer (signed=True), the automatically chosen length is always long enough, decoding the bytes with the same signedness gives back the integer, and no shorter byte string would decode to it (in the signed case: except for 0 and the lowest number of each length, -(128*256^k), which get one byte too many); an explicit length gives the byte string of that length that decodes to the integer, or OverflowError if there is none; the target type is called with these bytes; negative integers without signed raise OverflowError and non-integers TypeError, without a call.',
  'all integers',
  'The length formula is exercised at every power of two; integers are unbounded.',
  f'{STD}:ToBytes.func_args')
P('C15', 'Whole accepts exactly the whole exact numbers and preserves them',
  'On integers and rationals (and complex numbers with such real part) Whole succeeds iff the number is whole (and has zero imaginary part), and then calls the target type with that whole number; everything else raises TypeError.',
  'all integers, all rationals, all complex numbers with rational parts (floats: see C85)',
  'Infinite domain.', f'{STD}:Whole')
P('C16', 'FromInteger and Falsish accept exactly their documented inputs',
  'FromInteger maps values equal to 0 to False, equal to 1 to True and raises TypeError otherwise; it is legal exactly on bool fields (class creation raises TypeError for any other class, Literal and Callable types); Falsish constructs the target type without the input iff the input is falsish and raises TypeError otherwise.',
  'all objects', 'Quantifies over all inputs, including objects with custom equality.',
  f'{STD}:BoolFiller._bool_from_int', f'{STD}:Falsish')
P('C17', 'Constrained Loose coercers call the target type exactly on inputs meeting the constraint',
  'A constrained Loose / LooseUnpack / LooseUnpackMap calls the target constructor iff the input (every unpacked element, with matching count, or any count for (T, ...); every mapping entry, with a known key) is an instance of the constraint, and raises TypeError otherwise without calling the constructor. Extra constraints of LooseUnpackMap that the input does not mention are not enforced. A Loose constrained by the empty tuple is unconstrained. Without constraint all elements (all entries, as keywords) are passed; an input that cannot be unpacked (no iterable; no mapping; a mapping with a key that is no string) raises without a call (TypeError; AttributeError for a constrained LooseUnpackMap of a non-mapping). All of them refuse non-classes and abstract classes with TypeError when bound.',
  'all inputs and constraint lists', 'Unbounded element counts.',
  f'{STD}:Loose', f'{STD}:LooseUnpack', f'{STD}:LooseUnpackMap')
P('C18', 'LiteralEval always terminates and never yields a string',
  'Provided that evaluating a string literal yields a shorter string, the repeated evaluation of LiteralEval terminates for every input and its result, if any, is not a string; hence a str field with LiteralEval never accepts a value through coercion.',
  'all strings', 'Termination of an unbounded loop.', f'{STD}:LiteralEval')

# ---------------------------------------------------------------- single fillers
P('C19', 'Fields are hollow by default: any value is stored unchanged',
  'A field without type checking and without validators stores exactly the object passed in, never raises and runs no user code.',
  'all values', 'For all objects.', f'{FIL}:AnnotatedFiller.__call__', f'{FIL}:AnnotatedFiller.fill')
P('C20', 'Coercion runs only when type checking fails',
  'If the argument already matches the declared type (exactly, or by subclass under check), no coercer is called and the value handed to the first validator is the argument itself; if it does not match and there are no coercers, TypeError is raised and no user code runs.',
  'all values, coercer lists, validator lists with arbitrary effects',
  'The absence of effects is a statement about every callback and state.', f'{FIL}:AnnotatedFiller.fill')
P('C21', 'A type-checked field only ever holds values of its type',
  'For a checked field of class type whose validators preserve the type, every successful fill returns an instance of the class, and under check_strict an object whose type is exactly the class - whatever the coercers return.',
  'all values, all coercers (arbitrary effects), all type-preserving validators',
  'Coercers are arbitrary user code; soundness must hold for each.', f'{FIL}:AnnotatedFiller.fill', f'{STD}:SimpleFiller.type_check')
P('C22', 'What a checked None, Ellipsis or Callable field can hold',
  'A checked field annotated None, Ellipsis or Callable stores a matching argument after validation; for any other argument the value of the first coercer that returns is stored without a further check, and if there is no coercer it raises. Without coercers (and with type-preserving validators) only matching values are stored. (That coerced values are re-checked, as for other types, is refuted by a counterexample.)',
  'all values and coercers', 'A falsy-but-not-None return value only matters for one branch combination.',
  f'{STD}:NoneFiller.type_check', f'{STD}:EllipsisFiller.type_check', f'{STD}:CallableFiller.type_check', f'{FIL}:AnnotatedFiller.fill')
P('C23', 'Coercers are tried in declaration order, the first success wins, the last failure is reported',
  'When coercion runs, coercers are called in order until one returns a value of the right type; later coercers are never called; if all fail the exception of the last one is raised (TypeError if it returned a wrongly typed value).',
  'all coercer lists with arbitrary effects', 'Unbounded list length and arbitrary failure patterns.', f'{FIL}:AnnotatedFiller.fill')
P('C24', 'Which argument each coercer receives',
  'Each coercer attempt receives the last value returned by an earlier (wrongly typed) attempt, or the argument passed by the user if none returned yet; in particular, if every failing coercer fails by raising, each one receives the original argument. (That every coercer always receives the original argument is refuted by a counterexample.)',
  'all coercer lists', 'Needs a two-coercer history with a wrongly-typed intermediate result.', f'{FIL}:AnnotatedFiller.fill')
P('C25', 'Validators run once each, left to right, in registration order',
  'After type checking/coercion the stored value is the left-to-right composition of the validators; validators added in pre_bind run before those listed in Annotated, which run before built-in element/length/literal validation; in a Union field the tokens in the union\'s Annotated come first, then those from pre_bind, then the member\'s own; an exception stops the chain.',
  'all token lists and validators with arbitrary effects', 'Order over arbitrary lists and effects.',
  f'{FIL}:AnnotatedFiller.fill', f'{FIL}:AnnotatedFiller.bind', f'{FLD}:RecordField.add_validator', f'{TYP}:LiteralFiller.bind')
P('C26', 'Illegal filler configurations are rejected when the class is created',
  'Creating a class raises if a hollow field has coercers, if check_strict is used with an abstract class, if a hollow container has checked elements, if a non-specialised generic has checked parameters, if tokens are attached to an uninterpretable hint, or if an uninterpretable hint occurs in a checking class; a container whose tokens and elements are legal by themselves is refused in no other case, and then with TypeError; once bound a filler rejects further tokens and a second bind with RuntimeError.',
  'all hints, tokens and nesting depths', 'All nestings of type hints.',
  f'{FIL}:AnnotatedFiller.bind', f'{STD}:SimpleFiller.bind', f'{TYP}:GenericIterableFiller.bind', f'{TYP}:TupleFiller.bind', f'{TYP}:GenericMappingFiller.bind', f'{TYP}:GenericFillerN.bind', f'{GET}:DumbFiller')
P('C27', 'check_strict refines check',
  'Without coercers, whenever a check_strict field accepts a value, the same field with check accepts it and stores the same object; the two differ exactly on instances of proper subclasses.',
  'all values and classes', 'For all subclass relations.', f'{FIL}:AnnotatedFiller.fill', f'{STD}:SimpleFiller.type_check')
P('C28', 'KeyboardInterrupt and SystemExit are never swallowed',
  'If a coercer, validator, parser, default factory, post_new, attribute access, JSON decoder or foreign constructor raises an exception that is not a subclass of Exception, then construction, parse, from_mapping, from_instance, from_json, to_dict and the filling of a field raise exactly that exception: no fallback coercer, union alternative, parser, standing-by parse result or ParseFailure fallback replaces it. The built-in coercers and validators (Eval, MapCoercion, Loose, assertions, ...) pass such exceptions on as well.',
  'every callback position and state', 'Asynchronous exceptions may hit any callback.', f'{FIL}:AnnotatedFiller.fill', f'{TYP}:UnionFiller.fill', f'{REC}:RecordBase.parse', f'{REC}:RecordBase.__new__')
P('C29', 'A checked Literal field accepts exactly the listed values, by value and type, whatever was filled before',
  'Without coercers and user validators a checked Literal field accepts a hashable v iff some listed literal has the same type as v and is or equals v, stores v itself, and this does not depend on earlier fill attempts; with any coercers and validators, only hashable values with type and value of a listed literal are ever stored. With coercers and no user validators one attempt goes exactly so: an argument whose type is known (or, outside check_strict, an instance of a known type) is tested as it is and never coerced; otherwise the result of the first coercer that returns an acceptable value is tested; the known types are those of the literals and those of all values refused by the test before. (With coercers history independence is refuted by a counterexample: a failed attempt whose coercer returned a foreign type makes that type pass the type check later, so an input that was coerced successfully before is then rejected.)',
  'all literal lists, all values, all histories of earlier fills', 'The failure needs a specific history of calls.', f'{TYP}:LiteralFiller')

# ---------------------------------------------------------------- unions
P('C30', 'A Union field prefers exact over subclass over coerced over hollow matches',
  'A union that is not entirely hollow succeeds with value v iff some member fills successfully and all members that fill with the best match kind return the identical object v; the reported kind is that best kind.',
  'all member lists, all inputs', 'All combinations of member outcomes.', f'{TYP}:UnionFiller.fill')
P('C31', 'The outcome of a Union field does not depend on the order of its members',
  'For members without side effects, permuting the members of a union leaves the stored value and match kind unchanged whenever it succeeds, and a failing union fails in every order.',
  'all permutations of all member lists, all inputs', 'n! orders.', f'{TYP}:UnionFiller.fill')
P('C32', 'Ambiguous unions raise ValueError instead of picking a member',
  'If two members match with the same best kind but return different objects, the fill raises ValueError; if no member matches, the exception of the last member is raised.',
  'all member lists', 'All combinations of outcomes.', f'{TYP}:UnionFiller.fill')
P('C33', 'When validators of a Union field run',
  'If at least one member of a Union field is checked, every stored value went through the validators of the union and of the member that produced it; if every member is hollow the argument is stored and no validator runs. (That validators of a Union field always run is refuted by a counterexample.)',
  'all unions', 'Needs hollow members plus a validator.', f'{TYP}:UnionFiller.fill', f'{TYP}:UnionFiller.bind')

# ---------------------------------------------------------------- containers
P('C34', 'Container fields fill element-wise, in order, and keep the original object when nothing changes',
  'For a checked container whose elements are checked, filling calls the element filler once per element in iteration order; the result is the container itself iff every element filled to the identical object, otherwise what its class makes of exactly the filled elements in order; if some element fails, the fill fails with the exception of the first one (with RuntimeError if that is StopIteration and an element before it changed). This is for classes that take all elements from an iterator before doing anything else; other classes are in C41 and C118.',
  'all containers of any length, arbitrary element fillers', 'Unbounded lengths; the early-exit optimisation splits at an arbitrary index.', f'{TYP}:GenericIterableFiller.bind', f'{TYP}:TupleFiller.bind', f'{TYP}:_split_at')
P('C35', 'A fixed-length tuple field enforces length and per-position types',
  'A checked Tuple[T1..Tn] accepts only tuples of length n and fills position i with filler i; a checked Tuple without checked members still enforces the length.',
  'all tuples and n', 'Unbounded n.', f'{TYP}:TupleFiller.bind')
P('C36', 'Mapping fields fill every key and value',
  'A checked mapping field fills every key and every value once, in order (key before value), and returns the mapping itself iff all are identical, otherwise the mapping its class builds from exactly the filled pairs in order.',
  'all mappings', 'Unbounded sizes and key collisions.', f'{TYP}:GenericMappingFiller.bind')
P('C37', 'deque and defaultdict fields keep maxlen and default_factory',
  'When elements are changed by filling, a deque field is rebuilt with the maxlen of the original and a defaultdict field with the default_factory of the original.',
  'all deques and defaultdicts', 'All sizes and parameters.', f'{TYP}:GenericDequeFiller.reconstruct', f'{TYP}:DefaultDictFiller.reconstruct')
P('C38', 'Deep type soundness: a successfully filled value conforms to the whole nested type hint',
  'For every hint built from classes, None, Callable, Literal, Type, NewType, Union/Optional, Tuple, List/Set/Sequence/deque, and Dict/defaultdict, with any style at any level, arbitrary coercers on the class leaves, tokens on the hint or applied to the field in pre_bind, no user validators, and container classes whose constructors keep the elements, a successfully filled value conforms recursively to the hint.',
  'all hints of any depth and width, all inputs, all coercers', 'Structural induction over unbounded nesting.', f'{TYP}', f'{FIL}', f'{GET}:get_annotated_filler')
P('C39', 'Without coercers and validators, checking is a pure predicate: it stores the identical object iff it conforms',
  'For every such hint without coercers and validators, in a class with a type checking style, filling either raises an ordinary exception or returns the very object passed in, and it succeeds iff the object conforms to the hint.',
  'all hints of any depth, all inputs', 'Structural induction.', f'{TYP}', f'{FIL}')
P('C40', 'When validators declared on container elements run',
  'If the elements of a container field are checked, every element goes through its validators; if the element type is hollow, the validators attached to it are skipped together with the elements. (That element validators always run is refuted by a counterexample.)',
  'all containers', 'Needs hollow element with validator.', f'{TYP}:GenericIterableFiller.bind', f'{TYP}:GenericMappingFiller.bind', f'{TYP}:TupleFiller.bind')
P('C41', 'What a rebuilt container contains',
  'If an element changes, a container whose class constructor consumes an iterable of elements is rebuilt from exactly the filled elements; if the constructor does not (such as str), filling stops at the first changed element and the constructor is called with an unconsumed iterator. (That the rebuilt value always contains the filled elements is refuted by a counterexample: a Sequence field stores the repr of an iterator for a str.)',
  'all sequence classes', 'Depends on the class of the value.', f'{TYP}:GenericIterableFiller.reconstruct')
P('C42', 'Type hints resolve to the documented filler',
  'None, NewType chains, Any, bare generics and Callable resolve to the filler of NoneType, the supertype, object, the origin class and the callable filler; resolution terminates for every hint, and fails only for Annotated tokens on an uninterpretable hint.',
  'all hints', 'Recursive over all hints.', f'{GET}:get_annotated_filler', f'{TYP}:_typing', f'{STD}:none_checker', f'{STD}:callable_checker')

# ---------------------------------------------------------------- classes
P('C43', 'Fields of a record class: inherited first, in parent order, then own, each name once',
  'For every class that can be created, the field list is the concatenation of the direct record parents\' field lists and the own declarations; names are distinct, the list is non-empty, required and optional names partition it, and a field is optional iff it has a default. Own fields are in declaration order, except that names also annotated in a base class - record or not - come first, in the order of the base annotations, from the farthest class to the nearest.',
  'all class hierarchies of any depth and width', 'Induction over class hierarchies.', f'{REC}:RecordBase.__init_subclass__')
P('C44', 'Redeclaring an inherited field or inheriting one name twice is always rejected',
  'If the own declarations are legal by themselves, class creation raises ValueError iff an own field name collides with a field of a parent, or two parents share a field name, or there are no fields at all, and raises nothing else; in particular every diamond over a record class is rejected, in every program.',
  'all class hierarchies', 'All hierarchies.', f'{REC}:RecordBase.__init_subclass__')
P('C45', 'Class options are not inherited; inherited fields keep the type checking of their defining class',
  'frozen, ordered, default type checking and unary parsing of a subclass depend only on its own class arguments (and its required fields); inherited fields behave in the subclass exactly as in the class that declared them.',
  'all hierarchies, all inputs', 'All hierarchies.', f'{REC}:RecordBase.__init_subclass__')
P('C46', 'unary_parse defaults to enabled unless there is exactly one required field',
  'If not given explicitly, unary parsing is on iff the number of required fields (own and inherited) differs from one.',
  'all classes', 'All classes.', f'{REC}:RecordBase.__init_subclass__')
P('C47', 'filter_by_tag returns exactly the fields carrying the tag in classes without record parents',
  'In a class without record parents filter_by_tag keeps exactly the fields whose tag set contains the tag, in field order, where the tags of a field are those listed in the Annotated of its declaration (around or inside a Final); in every subclass of a record class it raises AttributeError. (That it works for all record classes is refuted by a counterexample: the field mapping of a subclass is a plain dict.)',
  'all classes and tags', 'Depends on the hierarchy.', f'{FLD}:FieldDict.filter_by_tag', f'{REC}:RecordBase.__init_subclass__')
P('C48', 'Final[T] requires a frozen class and is then the field T; Annotated around Final contributes tags only',
  'A raw Final, or Final[T] in a non-frozen class, makes class creation fail (TypeError if the other declarations are in order); in a frozen class replacing Final[T] by T gives the same class. Annotated[Final[T], tokens] gives the field of T with the tags added. (That it behaves like Annotated[T, tokens] is refuted by a counterexample: checking, coercion and validation tokens are silently dropped.)',
  'all hints and tokens', 'Nesting of annotations.', f'{FLD}:RecordField.from_type_hint')

# ---------------------------------------------------------------- construction
P('C49', 'Keyword construction stores exactly the filled arguments and the defaults',
  'If construction with keyword arguments succeeds (and post_new leaves the instance as it is), the instance has exactly the class\'s fields: each supplied field holds the output of its filler on the supplied value, each other field its default.',
  'all classes, all argument sets, all fillers', 'All classes and arguments.', f'{REC}:RecordBase.__new__')
P('C50', 'Unknown keyword arguments are rejected before any user code runs',
  'If some keyword is not a field name, construction raises TypeError, and no filler, factory or post_new has been called.',
  'all argument sets', 'Absence of effects for all callbacks.', f'{REC}:RecordBase.__new__')
P('C51', 'A record with a missing required field is never created',
  'If a required field is not supplied, keyword construction raises: the error of the first failing filler if any (in the form of C60), TypeError otherwise; no default factory and no post_new runs.',
  'all classes and argument sets', 'All argument sets.', f'{REC}:RecordBase.__new__')
P('C52', 'Default values are stored verbatim, without checking, coercion or validation',
  'The default of a missing optional field is stored as is, even if the field\'s filler would reject it; a value explicitly passed is always filled.',
  'all fields', 'All fillers.', f'{REC}:RecordBase.__new__', f'{FLD}:RecordField.make_default')
P('C53', 'Keyword order and set iteration order do not matter',
  'With fillers and factories free of side effects, permuting the keyword arguments or the internal iteration order of missing optional fields changes neither success nor any field value.',
  'all permutations', 'n! orders, nondeterministic set order.', f'{REC}:RecordBase.__new__')
P('C54', 'Each missing field\'s factory is called exactly once, factories of supplied fields never',
  'During a successful keyword construction the factory of a field is called once if the field was not supplied and not at all if it was.',
  'all classes and argument sets', 'Counts effects.', f'{REC}:RecordBase.__new__', f'{FLD}:RecordField.make_default')
P('C55', 'A positional argument is the single required field, or is parsed, or is an error',
  'Complete decision table of C(arg) and C(arg, **kwargs): with parsing off or keywords present the argument stands for the unique required field (TypeError if there is none or several, or if it is also given by keyword); with parsing on and no unique required field the outcome is the parse result or the error of parse (a parse result None is a TypeError); with parsing on and a unique required field: if parsing failed (or returned None), field construction decides; another error of parse is raised; if parsing and field construction both succeed, TypeError; if parsing succeeded and field construction fails, see C56.',
  'all classes, arguments and parser outcomes', 'All combinations of outcomes.', f'{REC}:RecordBase.__new__')
P('C56', 'When a parse result stands by, a failed filling yields it, a failed post_new only if it is truthy',
  'If the positional argument parses, an Exception while filling the field yields the parse result; an Exception in post_new yields it if and only if it is truthy, and is raised otherwise; an Exception in a default factory is always raised. (That every failure of post_new yields the parse result is refuted by a counterexample with a class whose instances are falsy.)',
  'all classes', 'Needs falsy instances.', f'{REC}:RecordBase.__new__')
P('C57', 'parse succeeds iff exactly one registered parser succeeds',
  'parse returns the result of the unique succeeding parser; raises ParseFailure iff none succeeds and (plain) TypeError iff several do; every parser is called exactly once in any case, unless one raises something that is no Exception, which propagates at once.',
  'all parser lists', 'All outcome combinations.', f'{REC}:RecordBase.parse')
P('C58', 'parse does not depend on the order of parsers',
  'For parsers without side effects that raise nothing but Exceptions, permuting the parser list does not change the outcome of parse.',
  'all permutations', 'n! orders.', f'{REC}:RecordBase.parse')
P('C59', 'A class without required fields cannot be parsed from mappings: parse is always ambiguous',
  'For a class whose fields all have defaults and whose default construction succeeds, from_instance succeeds on every object lacking its attributes, so parse raises TypeError as ambiguous for every mapping that from_mapping accepts; with a required field and the built-in parsers, parse of a mapping works exactly when from_mapping does. (That parse accepts whatever from_mapping accepts is refuted by a counterexample.)',
  'all such classes and mappings', 'A universally quantified impossibility.', f'{REC}:RecordBase.parse', f'{REC}:RecordBase._to_dict')
P('C60', 'Filling errors keep their type and name the field',
  'If the filler of field k raises an Exception e, construction raises an error naming k whose type is the type of e if that type can be built from one string, ValueError if that raises TypeError; if building it raises another exception, that is raised. An exception that is no Exception propagates unchanged.',
  'all exceptions', 'All exception types.', f'{REC}:RecordBase.__new__')
P('C61', 'Field names arg, cls and self cannot be set by keyword',
  'A keyword (or mapping key) named arg is taken as the positional argument - even for classes without such a field -, cls raises TypeError, and so does self unless the construction returns an object that is no instance of the class; all other names are passed through as field values.',
  'all classes and keyword sets', 'Name-dependent parameter binding.', f'{REC}:RecordBase.__new__', f'{REC}:RecordBase.__init__', f'{SEL}:SelectableFactory.run')
P('C62', 'post_new sees the fully filled instance and decides the result',
  'post_new is called exactly once in a successful field construction and at most once in a failing one, after all fields are set; if it raises (and no parse result stands by) construction raises; a truthy return value replaces the instance, otherwise the instance (with the mutations made by post_new) is returned.',
  'all post_new hooks', 'Arbitrary user hook.', f'{REC}:RecordBase.__new__', f'{REC}:RecordBase.post_new')
P('C63', 'from_mapping: earlier mappings win, keyword arguments come last',
  'The value of a field is taken from the first mapping containing its key and from the keyword arguments only if no mapping contains it. A keyword named like a parameter of the method raises TypeError.',
  'all lists of mappings', 'Unbounded number of overlapping mappings.', f'{REC}:RecordBase.from_mapping')
P('C64', 'from_instance: keyword arguments override the mapping, which overrides the attributes',
  'With at most one extra mapping, from_instance calls the constructor with the keyword arguments overriding the mapping, which overrides the attributes (those equal to the default are left out, missing optional ones fall back to the default). A missing attribute of a required field raises AttributeError even if the mapping or the keywords supply it. Two or more mappings, which the signature allows, raise TypeError. A keyword named like a parameter of from_instance or from_json raises TypeError, and nothing is read or constructed.',
  'all objects and mappings', 'All overlaps.', f'{REC}:RecordBase.from_instance')
P('C65', 'from_instance of an instance of a frozen class returns the same object',
  'With no select, mappings or keywords, from_instance returns the argument itself iff the class is frozen and the argument is an instance of it (or a subclass, even a mutable one); otherwise it constructs anew.',
  'all objects', 'All hierarchies.', f'{REC}:RecordBase.from_instance', f'{SEL}:SelectableShortcutFactory.run')
P('C66', 'Selecting on from_instance applies to the extracted attributes only',
  'from_instance.select(s)(obj) applies the select to the attributes that are fields or that the select removes or renames, except added keys and fields equal to their default; it raises AttributeError iff such an attribute is missing that is neither optional nor replaced by a rename nor a maybe-rename source. If no attribute equals a default, this is what from_mapping.select(s) does on those attributes. (That it always behaves as from_mapping.select(s) on the attributes is refuted by counterexamples: removing a field equal to its default, maybe-adding a missing required field.)',
  'all selects and objects', 'Interaction of extraction and selection.', f'{REC}:RecordBase._to_dict', f'{SEL}:SpecializedSelectableFactory.run')

# ---------------------------------------------------------------- instances
P('C67', 'Record equality is an equivalence relation decided by class and field values',
  'For value equality that is an equivalence (and compatible with hash), == on records is reflexive, symmetric and transitive; two records are equal iff they have the same class and pairwise equal fields; records of different classes are never equal.',
  'all records', 'All triples of records.', f'{REC}:RecordBase.__eq__')
P('C68', 'Equal frozen records have equal hashes',
  'If field values respect the hash contract, equal frozen records have equal hashes although fields equal to their default are left out of the hash; the early hash comparison in == never rejects equal records.',
  'all frozen records', 'All values.', f'{REC}:RecordBase.__hash__', f'{REC}:RecordBase.__eq__')
P('C69', 'The hash of a frozen record never changes',
  'After any sequence of attribute assignments (all but of the private cache slot), hashings, comparisons and exports, the hash returned is the same as at first.',
  'all histories', 'All histories.', f'{REC}:RecordBase.__hash__', f'{REC}:RecordBase.__setattr__')
P('C70', 'Assignment to a frozen record always fails; only deletion can change it',
  'On a frozen record every attribute assignment (except to the private hash slot) raises TypeError and leaves the record as it is; no history of operations without deletions changes its attributes. Deletion is not blocked: it removes the attribute, which then reads as whatever the class holds under the name; deleting an attribute that is not there raises AttributeError and changes nothing (that a frozen record cannot be modified at all is refuted by a counterexample).',
  'all histories of operations', 'All histories.', f'{REC}:RecordBase.__setattr__', f'{REC}:RecordBase.__init_subclass__')
P('C71', 'Non-frozen records are unhashable, and frozen records with an unhashable field value cannot be compared',
  'hash of a non-frozen record always raises TypeError; comparing two same-class frozen records raises TypeError if a non-default field value is unhashable, even against itself (that every record can be compared with itself is refuted by a counterexample); non-frozen records are compared whatever their values.',
  'all records', 'Depends on field values.', f'{REC}:RecordBase.__eq__', f'{REC}:RecordBase.__hash__')
P('C72', 'Ordering of an ordered class is a total preorder on the non-excluded fields, lexicographic in field order',
  'If field values are totally ordered, <, <=, >, >= on records of one ordered class are transitive, total, mutually consistent (a<b iff not b<=a; a>b iff b<a), and are the lexicographic order of the non-excluded fields.',
  'all records', 'All triples.', f'{REC}:RecordBase.__lt__', f'{REC}:RecordBase.__le__', f'{REC}:RecordBase.__gt__', f'{REC}:RecordBase.__ge__')
P('C73', 'Mutual <= means equality of the non-excluded fields',
  'a <= b and b <= a iff the records agree in all fields that are not excluded from the ordering; if no field is excluded that is a == b; equal records are never in the relation <. (That mutual <= means a == b for every ordered class is refuted by a counterexample.)',
  'all records', 'All pairs.', f'{REC}:RecordBase.__le__', f'{REC}:exclude_from_ordering')
P('C74', 'Comparing unordered or unrelated records raises TypeError',
  'Comparison raises TypeError if the class of either operand is not ordered, or the operands\' classes are unrelated; for different classes a < b and b > a (and <= and >=) have the same outcome; a record and one of an ordered subclass are compared by the lists of their non-excluded fields.',
  'all pairs of records of a class hierarchy', 'Reflected operator dispatch.', f'{REC}:RecordBase._check_comparable', f'{REC}:RecordBase.__lt__')
P('C75', 'to_dict exports exactly the selected fields',
  'to_dict contains a field iff it is whitelisted, or it carries no blacklisted tag and (include_defaults or its value is not equal to a plain default); values are the attribute values; keys are in field order when unsorted. If reading an attribute of the exported object raises, the export raises the same exception (RuntimeError for StopIteration), except AttributeError for a field with a default; a blacklist that is neither a tag nor a set of tags raises TypeError unless every field is whitelisted.',
  'all records and export options', 'All option combinations and field lists.', f'{REC}:RecordBase._to_dict')
P('C76', 'Sorting an export only permutes it',
  'sort=True orders keys lexicographically, sort=-1 reverse lexicographically, a key function orders by it stably; the exported entries are the same in all cases and values are never compared.',
  'all records', 'All permutations.', f'{REC}:RecordBase._to_dict')
P('C77', 'Export and re-import round-trips',
  'If every field\'s filler maps the stored value to itself, post_new does not interfere and no field is named self, cls or arg, C.from_mapping(r.to_dict()) succeeds and equals r, for all export options that drop nothing but default values. (Without the condition on names it is refuted by a counterexample: a field named self.)',
  'all records', 'All records.', f'{REC}:RecordBase._to_dict', f'{REC}:RecordBase.from_mapping')
P('C78', 'JSON round-trip',
  'If the JSON codec restores the exported mapping, C.from_json(r.to_json()) equals r under the same hypothesis.',
  'all records', 'All records.', f'{REC}:RecordBase.to_json', f'{REC}:RecordBase.from_json')
P('C79', 'copy returns an equal record (the same object if frozen)',
  'copy of a frozen record is the record itself; copy of a non-frozen record whose stored values are fixed points of their fillers is a new record equal to it; extra attributes are not copied.',
  'all records', 'All records.', f'{REC}:RecordBase.__copy__')
P('C80', 'deepcopy returns an equal record',
  'If deep-copied values equal the originals and are fixed points of the fillers, deepcopy of a record equals it.',
  'all records', 'All records.', f'{REC}:RecordBase.__deepcopy__')
P('C81', 'Unpickling restores exactly the pickled attributes',
  'If re-construction from the exported non-default fields succeeds (and post_new does nothing), unpickling yields a record of the same class whose attributes are exactly those of the original (even if fillers are not idempotent); it fails iff the re-construction C(**fields) fails, with the same error. With an active post_new, the attributes of the original are restored and only attributes it lacks come from the re-construction.',
  'all records', 'All records.', f'{REC}:RecordBase.__getnewargs_ex__')
P('C82', 'An unpickled frozen record equals the original if its hash was not computed before pickling',
  'A record whose hash was not yet computed when it was pickled equals, when unpickled in any process, exactly the records with equal fields. If the hash had been computed, it equals a record with equal fields iff that has the pickled hash. (That an unpickled frozen record always equals its original is refuted by a counterexample: the cached hash is pickled too, but hashes depend on the process.)',
  'all records, all process seeds', 'Needs two processes.', f'{REC}:RecordBase.__hash__', f'{REC}:RecordBase.__getnewargs_ex__')
P('C83', 'repr shows exactly the non-default fields in field order',
  'repr is the class name followed by name=repr(value) for exactly the fields exported by to_dict, in field order; called with export options, __repr__ shows the entries of to_dict with these options, in that order.',
  'all records', 'All records.', f'{REC}:RecordBase.__repr__')
P('C84', 'Bound exporters and factories are immutable, and what they do is fixed by the calls that made them',
  'select and export_with make new bound objects; whatever happens later, calling the object they were called on has the same outcome as before (with Selects over re-iterable arguments). A bound exporter has the edits of all its selects concatenated, its positional options one after the other, and for each option given by keyword the value given last; the arguments of a to_dict call count as the last options, the arguments of a to_json call are not options. Too many, unknown or twice-bound options give TypeError. (That later options override earlier ones also when given by position, and that bound objects are immutable with one-shot iterators, are refuted by counterexamples.)',
  'all chains of select/export_with', 'All chains.', f'{SEL}:Exporter.Bound', f'{SEL}:NoArgExporter.run')

P('C85', 'Whole accepts floats just below a whole number and int then rounds them down',
  'Whole accepts a float (or a complex number with zero imaginary part and such a real part) iff it is whole or lies less than 18014399 / 2^54 (a little more than 1e-9) below a whole number, and then calls the target type with the float itself, otherwise it raises TypeError without a call; whole floats are preserved by int, negative ones are rounded up to the whole number, positive ones just below a whole number down to the next smaller one. (That int yields the nearest whole number, i.e. that Whole preserves what it accepts, is refuted: 2.9999999999 is accepted and becomes 2.)',
  'all finite floats, in binary64 arithmetic (% and isclose rounded as IEEE 754 prescribes)', 'Infinite domain; the accepted sliver below each whole number is easily missed by examples.',
  f'{STD}:Whole')
P('C86', 'Eval accepts strings only and turns every evaluation error into a TypeError',
  'Eval raises TypeError for a non-string without evaluating anything; an Exception raised by the evaluation becomes TypeError, other exceptions (KeyboardInterrupt) propagate, and the effects of the evaluation persist, also those on the names of the field.',
  'all inputs, all evaluation behaviours', 'Arbitrary effectful expressions.', f'{STD}:Eval')
P('C87', 'A class whose pre_bind adds tokens to its fields can only be subclassed by overriding pre_bind',
  'If pre_bind - own or inherited - adds a validator, coercer or other token to an inherited field, class creation fails: RuntimeError because the field is already bound, TypeError if the hint of the field is uninterpretable. In particular no subclass that inherits a non-trivial pre_bind can be created.',
  'all hierarchies and pre_bind hooks', 'All hierarchies.', f'{REC}:RecordBase.__init_subclass__', f'{FLD}:RecordField._apply_to_filler')
P('C88', 'When a field without a value in the class body is required',
  'A declared field is required iff the class body assigns it no value and neither a superclass nor the metaclass has an attribute of that name; otherwise that value, or the attribute nearest in the method resolution order, is its default. (That a field declared without a value is required is refuted by a counterexample: a field named parse gets the class method of that name as its default.)',
  'all classes and names', 'All names and base classes.', f'{REC}:RecordBase.__init_subclass__')
P('C89', 'Selecting on an export sees the exported entries, not the fields',
  'r.to_dict.select(keys_to_remove=k)() gives the export without k if k is in the export, and raises KeyError otherwise. (That every field of a record can be removed from its export is refuted by a counterexample: a field that has its default is not exported, so removing it raises KeyError.)',
  'all records and keys', 'Depends on the value of the field.', f'{SEL}:Exporter.run', f'{SEL}:Select.__call__', f'{REC}:RecordBase.to_dict')

P('C90', 'Filling a filled value again changes nothing',
  'With a checking style, a value that conforms to the declared type at every depth is stored as it is (the same object, not coerced), for every hint whose unions are free of coercers or consist of single classes and coercer-free containers. Hence filling is idempotent: what a field stored is stored unchanged when it is passed again. (For arbitrary unions of containers with coercers this is refuted by a counterexample: a stored list is rejected as ambiguous.)',
  'all type hints of that form, nested to any depth, all coercers and values', 'All hints, coercers and values.', f'{FIL}:TypePassKind', f'{TYP}:UnionFiller', f'{TYP}:GenericIterableFiller')

P('C91', 'Every field of every record conforms to its declared type, however the record was made',
  'If the default of a field conforms to its declared type and post_new and user-defined parsers respect it, then in every instance that the library returns - by calling the class with positional or keyword arguments, parse, from_mapping, from_instance, from_json, from_pickle, copy, deepcopy - the field, own or inherited, is set and its value conforms to the declared type at every depth; it continues to conform whatever is done to the record except assigning or deleting that attribute, and after unpickling. If all fields are of this kind, export/import and copy give equal records without further conditions. (Without the condition on the default this is refuted by a counterexample.)',
  'all classes and hierarchies, all hints as in C38, all arguments and routes, all histories', 'All routes and values.', f'{REC}:RecordBase.__new__', f'{REC}:RecordBase.parse', f'{SEL}:SelectableFactory')

P('C92', 'What an object listed in Annotated or applied to a field means',
  'A token object, or a token class that can be instantiated without arguments, stands for that token; Styles and tags for themselves; objects that stand for the same token are interchangeable in every declaration. An exception raised while the object is inspected or called makes the declaration fail with that exception. Other objects without a __wrapped__ attribute are ignored. An object with a __wrapped__ attribute is called without arguments at class creation and its result is used as a coercion token. (That metadata of other libraries is ignored is refuted by a counterexample: any function decorated with functools.wraps.)',
  'all objects and fields', 'Arbitrary objects of other libraries may occur as metadata.', f'{FIL}:AnnotatedFiller.apply', 'records/fillers/util.py:_as_instance')
P('C93', 'add_validator, add_coercer and add_assert_validator, called directly or as decorators',
  'Called with a function, an adder applies it to the part of the field addressed by sub_key and returns the function unchanged; the remaining keywords are passed to each call of the function (for add_assert_validator: to the assertion, which takes only err and warn). Called without a function it returns a decorator that does the same, to the field as it then is, each time it is used, and changes nothing by itself. Functions added by add_validator run once each, in the order added, before the validators of the annotation. CallValidation(foo, a, c=d) is the same as CallValidation(lambda v: foo(v, a, c=d)), likewise CallCoercion and ClassMethodCoercion. Refused keywords leave the field unchanged.',
  'all functions, keywords and fields', 'All functions and keywords.', f'{FLD}:RecordField.add_validator', f'{FLD}:RecordField.add_assert_validator', f'{FLD}:RecordField.add_coercer', f'{VAL}:CallValidation', f'{COE}:CallCoercion')
P('C94', 'Type constraints of Loose coercers are checked at declaration and enforced on input',
  'A constraint made of classes and nested tuples of classes is accepted; anything else is refused with TypeError when it is declared, unless None is an instance of an earlier class. LooseUnpack reads (T, ...) as any number of T and other lists position by position; ... elsewhere is refused. LooseUnpackMap takes a constraint per keyword, under any keyword but cls (TypeError), requires every entry of the input to have one and to meet it, and does not require the entries to be present. On an input that meets the constraint (the empty tuple counts as no constraint for Loose) the target type is called with it; on any other input TypeError is raised without a call, also for an ill-formed constraint that was accepted. (That every ill-formed constraint is refused when declared is refuted by a counterexample.)',
  'all constraints, nested to any depth, and all inputs', 'Unbounded nesting and element counts.', f'{STD}:Loose', f'{STD}:LooseUnpack')
P('C95', 'A coercion token that does not fit the type of its field is refused when the class is created',
  'LiteralEval binds to the classes with literals and to no others; LiteralEval on a class without literals, Loose and its relatives on an abstract class, ClassMethodCoercion with a method the class lacks, FromInteger on a class other than bool, and a ComposeCoercer containing any of these or an object that is no coercion token (nested to any depth) make class creation fail, with the token\'s own exception if nothing fails before it; so the misfit never shows up as a failing construction.',
  'all such tokens and classes, at any position among other tokens', 'All compositions.', f'{STD}:LiteralEval', f'{STD}:Loose', f'{COE}:ClassMethodCoercion', f'{COE}:ComposeCoercer')
P('C96', 'What names an Eval field can use, and who can change them',
  'An expression sees the target type by its name (if ... was given first), the positional objects by their __name__ (the last of equal names), then the keywords, and nothing else but __builtins__. An object without __name__ is refused when the token is made. Fields bound with ... have a namespace of their own: whatever expressions other fields evaluate does not affect them; without ... all fields of the token share its namespace. If no expression changes the namespace, the outcome depends on the string only. (Without that condition this is refuted by a counterexample: __builtins__.update(x=2) persists.)',
  'all argument lists, all histories of evaluations', 'Depends on the history of evaluated strings.', f'{STD}:Eval')

P('C97', 'Which parsers and hooks a record class has',
  'In every program, parse tries, in alphabetical order, exactly those attributes of the class whose nearest definition in the method resolution order is marked with @parser; likewise the nearest post_new and __bool__ count, also when they come from a base class that is no record. A marked parser of a class is a parser of every subclass in which no nearer class has an attribute of that name; a field, a value or an unmarked method of that name removes it. Bases that admit no resolution order make the class statement raise TypeError. Two names for parsers that accept the same argument make parsing that argument fail. (That a marked callable is a parser of all subclasses is refuted by a counterexample.)',
  'all programs: class hierarchies of any depth and width, with record and plain classes', 'All hierarchies and names.', f'{REC}:parser', f'{REC}:RecordBase.__init_subclass__', f'{REC}:RecordBase.parse')
P('C98', 'The fields of a class are those declared by its superclasses and itself, each by exactly one class and never changed by another',
  'In every program, the fields of a record class are exactly the fields declared by its record superclasses (in the sense of the method resolution order) and by itself; each name is declared by exactly one of them, and the field - type, validators, coercers, default, tags - is the same object in all subclasses, whatever their bodies assign to the name. (That a value assigned in the body of a subclass becomes the default of an inherited field is refuted by a counterexample.)',
  'all programs', 'All hierarchies.', f'{REC}:RecordBase.__init_subclass__')

P('C99', 'Tokens added in pre_bind, to a field or with sub_key= to a part of its type, do exactly what writing them into the type does',
  'add_validator / add_assert_validator / add_coercer in pre_bind are equivalent to listing the token in Annotated: added to a field, in front of the tokens already listed there (behind them if the type is a union); added with sub_key= to the element of a collection (key 0), the key or value of a mapping (0, 1) or a position of a tuple (indexed like a sequence), into the type of that part, in the order of the calls; added to a member of a union (indexed like a sequence), into that member in front of the tokens listed for the union. Both ways of writing the class are legal together, and then accept the same values, with the same results, effects and match kinds. A sub_key that addresses no part raises when the class is created: IndexError for tuples and unions, LookupError for every other type.',
  'all field types, token lists, keys, default styles, arguments and states', 'All types and tokens; three unit tests add one coercer each.',
  f'{FLD}:RecordField.add_validator', f'{FLD}:RecordField._apply_to_filler', f'{FIL}:Filler.sub_filler', f'{TYP}:UnionFiller.sub_filler', f'{TYP}:TupleFiller.sub_filler', f'{TYP}:GenericIterableFiller.sub_filler', f'{TYP}:GenericMappingFiller.sub_filler')

P('C100', 'How far construction depends on the recursion limit',
  'Construction calls the class again only to parse a positional argument, and that call parses again only if the mapping it is given - the argument itself, the mapping a JSON text describes, the attributes of an object - has an entry arg. So calls with keywords other than arg, and positional calls of classes that do not parse, need one level; if following the arg entries from the argument ends after n steps, every limit of at least n + 2 levels (n + 1 for parse) gives the same outcome. (That a large enough limit always determines the outcome is refuted by a counterexample: for a mapping that contains itself as arg, the RecursionError is swallowed and the call returns a record or raises TypeError depending on whether the limit is odd or even.)',
  'all record classes, arguments, nesting depths and limits', 'Depends on nesting depth and recursion limit, both unbounded.', f'{REC}:RecordBase.__new__', f'{REC}:RecordBase.parse', f'{REC}:RecordBase.from_mapping')

P('C101', 'Tags are matched by class and value, not by identity',
  'A field carries a tag iff a tag of the same class around an equal object is listed in its declaration - whichever tag object, in whichever order, however often; looking up or declaring a tag around an unhashable object raises TypeError. filter_by_tag keeps the fields that carry the tag in this sense, and blacklist_tags excludes a field iff one of the blacklisted tags is carried by it. So any numbering of the tags that gives two of them the same number iff they are the same in this sense yields the same answers, and such a numbering always exists. (That tags around different objects are different is refuted by a counterexample: Tag(1) and Tag(True).)',
  'all lists of tags and tokens, all fields, equality that is an equivalence and respected by hashing', 'All lists of tags, depends on == and hash of the wrapped objects.', 'records/tags.py:Tag', f'{FLD}:RecordField._apply', f'{FLD}:FieldDict.filter_by_tag')
P('C102', 'Reading and writing files does the same as with the text',
  'to_json and to_pickle with io= write to the file what they return without io= (under every selection and all export options) and return None; io=None is the same as no io. from_json_io and from_pickle_io do with the contents of the file what from_json and from_pickle do with the text. from_pickle returns the unpickled object itself if it is an instance of the class, has the outcome of parse on it otherwise, and raises what pickle.loads raises. A keyword named like a parameter raises TypeError before anything is read or written.',
  'all codecs whose dump writes what dumps returns and whose load decodes what read returns; all objects, selections and options', 'All objects, options and codecs.', f'{REC}:RecordBase.from_pickle', f'{REC}:RecordBase.from_pickle_io', f'{REC}:RecordBase.from_json_io', f'{REC}:RecordBase.to_json', f'{REC}:RecordBase.to_pickle')

P('C103', 'Cyclic on floats is exact where nothing is rounded, never goes below minimum, and may return maximum',
  'For float bounds minimum < maximum and a float value Cyclic returns a float that is not below minimum, and the value itself if it lies inside; if maximum - minimum is a float the result is not above maximum. If minimum is 0 the result is the float nearest to the exact representative of the value in [0, maximum), and is the exact representative if the value is not negative. If the exact representative and the differences to minimum are floats the result is exact; on whole numbers of magnitude at most 2^52 it is the result for integers. Equal bounds raise ZeroDivisionError for every value; for bounds in the wrong order the result is not above minimum. (That the upper bound is exclusive is refuted by a counterexample: Cyclic(0., 360.) maps -2**-60 to 360.0, so validating twice gives 0.0; and Cyclic(-2.**53 + 1, 4.5) maps -2.**53 to 5.0.)',
  'all finite floats without overflow, in binary64 arithmetic', 'All floats; the failing values are extremely close to a bound.', f'{BV}:Cyclic')

P('C104', 'Which exceptions making a record can raise',
  'Of its own, the library raises only TypeError (and its subclass ParseFailure) and ValueError when it fills, parses and constructs, and turns StopIteration into RuntimeError where a callback runs in a generator: if the coercers, validators, default factories and post_new of a class and of its superclasses, the constructors of rebuilt containers and the constructors of their exceptions raise only exceptions from a set that contains these (and RuntimeError, if it contains StopIteration), then so does calling the class, whatever the arguments and whatever Exception its parsers raise. parse raises only ParseFailure, TypeError, or what is no Exception, without any condition. from_mapping adds the errors of applying the Select, which are KeyError and ValueError; from_instance also those of reading attributes, from_json those of json.loads and of reading its result as a mapping. The coercion tokens of the library add nothing to what the functions and classes they are given raise, except that LooseUnpackMap with constraints raises AttributeError for a value without items (Eval turns every Exception into TypeError). The exception is a class whose default_type_check is TypeCheckStyle.default: filling raises a bare Exception.',
  'all classes and hierarchies, type hints, tokens, arguments and states', 'All arguments and all nesting of types; a test sees the exceptions of the inputs it tries.', f'{REC}:RecordBase.__new__', f'{REC}:RecordBase.parse', f'{FIL}:AnnotatedFiller.fill', f'{TYP}:UnionFiller.fill')

P('C105', 'What calling a class on one of its own instances does',
  'If the number of required fields is not one (so that the class parses positional arguments by default), C(r) returns r itself for an instance r of a frozen class or of a subclass of it, and otherwise a fresh record equal to r whenever every filler keeps the stored values - provided r can be read neither as JSON text nor as a mapping and the further parsers of the class refuse it. If exactly one field is required, by default C(r) puts r through the filler of that field and stores the result in it; with unary_parse=True the instance of a frozen class is returned if the field refuses it, and TypeError is raised if the field accepts it. (That calling a frozen class on an instance of it returns that instance is refuted by a counterexample with one required field.)',
  'all classes, instances and states', 'All classes and instances; the unit tests try one frozen class and one subclass.', f'{REC}:RecordBase.__new__', f'{REC}:RecordBase.parse', f'{REC}:RecordBase.from_instance')
P('C106', 'What Clamp and Within do with values and bounds that cannot be compared',
  'For partially ordered values (sets, floats with NaN): Clamp and Within refuse bounds only if they are comparable and in the wrong order (Within also equal bounds that are not both inclusive). Clamp returns the lower bound for a value below it, the upper bound for a value above it, and every other value as it is; the result is never below the lower or above the upper bound, and clamping twice is clamping once. Within passes a value iff it compares with each given bound as required, so it refuses values that cannot be compared with a bound; what Within with inclusive bounds passes, Clamp returns unchanged. A NaN bound is accepted: Clamp then does not constrain that side, Within refuses every value. (That the result of Clamp passes Within with the same bounds is refuted by a counterexample.)',
  'all partially ordered types, bounds, flags and values', 'All partial orders; the unit tests only use numbers that are comparable.', f'{BV}:Clamp', f'{BV}:Within')
P('C107', 'How records compare with objects that are no records',
  'record == x is False and record != x is True for every object x of another class, which is not asked; x == record and x != record are decided by x (False and True if it declines), unless the class of the record is a subclass of the class of x: then they are False and True. record < x (and <=, >, >=) raises TypeError without asking x if the class of the record is not ordered; if it is ordered, the reflected method of x decides, as for x > record, and TypeError is raised if x declines. x > record is decided by x also if the class of the record is not ordered, unless that class is a subclass of the class of x: TypeError. (That == is symmetric is refuted by a counterexample: unittest.mock.ANY.)',
  'all records and all objects, whatever their comparison methods answer, raise or do', 'All comparison methods of other objects; the unit tests compare with the number 0 only.', f'{REC}:RecordBase.__eq__', f'{REC}:RecordBase.__lt__', f'{REC}:RecordBase._check_comparable')

P('C108', 'Which exceptions a class statement can raise',
  'Once its annotations have been evaluated, the creation of a record class fails only with TypeError, with what its tokens raise when they are instantiated or asked for their coercer or validator, or with one of these, each only for the cause given: ValueError if field names collide, there is no field, or a coercion token is used (coercers on a hollow field); AttributeError if pre_bind addresses a name that is no field; RuntimeError if it addresses an inherited field; LookupError or IndexError if it uses a sub-key. In a program, a class statement without any pre_bind that adds tokens in reach raises only TypeError, ValueError and what its tokens raise.',
  'all class statements, hierarchies, type hints of any depth, tokens and pre_bind hooks', 'All declarations; a test sees the exceptions of the declarations it tries.', f'{REC}:RecordBase.__init_subclass__', f'{FLD}:RecordField.from_type_hint', f'{FIL}:AnnotatedFiller.bind', f'{FIL}:AnnotatedFiller.apply', f'{GET}:get_filler')

P('C109', 'What exporting, printing, hashing and comparing a record ask of field values whose own methods raise or have effects',
  'to_dict evaluates default == value once for each field that is not ruled out by a tag, is not whitelisted and has a plain default, in field order; fields with a true answer are left out, and the first comparison that raises ends the export with its exception (later ones are not made). With include_defaults, or without plain defaults, nothing is compared. repr makes these comparisons and then asks the values left for their repr; hash of a frozen record does the same with hash and caches the result only if nothing raised; a cached hash asks nothing. == of two non-frozen records of one class evaluates != on the values in field order up to the first true answer or exception; for frozen records it computes both hashes first and compares fields only if they agree. If comparing is pure and != negates ==, this is the behaviour of C67-C71 and C75. (That a record equals itself is refuted by a counterexample, a NaN; but r <= r is True for every record of an ordered class.)',
  'all records, export options, and methods ==, !=, hash, repr of field values with any effects and exceptions', 'All methods of foreign values; the unit tests only use values with ordinary comparisons.', f'{REC}:RecordBase._to_dict', f'{REC}:RecordBase.__repr__', f'{REC}:RecordBase.__eq__', f'{REC}:RecordBase.__hash__', f'{FLD}:RecordField.is_default')

P('C110', 'FullMatch, and what replacing the modules of records.extras affects',
  'from_json, from_json as a parser, to_json, from_pickle and to_pickle use the json or pickle module assigned to records.extras last before the call, whatever else happened before. FullMatch compiles its pattern once, with the re module assigned last before it was made, and keeps it if extras.re is replaced later; if compiling raises, no validator is made. A FullMatch passes on unchanged exactly the values that its pattern matches fully; for others it raises its error or warns once and passes the value on; an exception of the matching itself (say, text pattern and bytes value) is passed on.',
  'all programs of assignments to records.extras, declarations and calls; all modules', 'All sequences of replacements and calls; the unit tests never replace a module.', 'records/extras.py', f'{BV}:FullMatch.__init__', f'{BV}:FullMatch.assert_', f'{REC}:RecordBase.from_json', f'{REC}:RecordBase.to_json', f'{REC}:RecordBase.from_pickle', f'{REC}:RecordBase.to_pickle')

P('C111', 'Which exceptions using a record can raise',
  'Whatever was done with a record before (assignments, deletions, hashing, comparisons with other records on either side, exports, in any order, whether they raised or not): reading a field never raises - it gives the value, or the field object of the class once the value was deleted; to_dict and repr never raise and have no side effect, with any options whose blacklist_tags is a tag or a set of tags, and show exactly what reading the exported fields gives; hash raises only TypeError, in a frozen class only if some field reads as an unhashable value other than its default; == raises only TypeError, and only in a frozen class for such a value of one of the two; <, <=, >, >= raise TypeError or what comparing two field values raised; assignment raises TypeError in a frozen class only; deletion raises AttributeError only, for an attribute that the record does not have. An operation that raises leaves all attributes of the record as they were.',
  'all classes, records and finite histories of operations', 'All histories; the unit tests never delete an attribute and use a record in few ways.', f'{REC}:RecordBase._to_dict', f'{REC}:RecordBase.__repr__', f'{REC}:RecordBase.__eq__', f'{REC}:RecordBase.__hash__', f'{REC}:RecordBase.__setattr__', f'{REC}:RecordBase.__lt__')

P('C112', 'Selects made from generators, zip and other one-shot iterators',
  'A Select made from re-iterable arguments (tuples, lists, mappings, strings) can be used any number of times. If some arguments are one-shot iterators: the first use by from_mapping, from_json or an exporter applies all entries but one - the truth test of the Select takes the first entry of its first non-empty argument (in the order add, maybe add, remove, maybe remove, rename, maybe rename), which is lost if that argument is one-shot. The first use by from_instance reads attributes for these entries, but applies only those of the re-iterable arguments and the remaining keys to maybe add and to maybe remove. After a use that succeeded, and any further uses by any factories, only the re-iterable arguments have an effect; from_instance never returns the object itself and from_json never unpacks JSON directly, even if no entry is left. A Select without entries makes no difference. Merging two non-empty Selects gives a re-iterable one with the entries each would apply at its first use, and uses up their one-shot arguments. (That it does not matter whether entries come from tuples or other iterables is refuted by counterexamples: keys_to_rename=zip(["z"], ["x"]) renames nothing.)',
  'all arguments, mappings, objects, classes and sequences of uses', 'All combinations of iterables and histories of uses; the unit tests never pass a one-shot iterator.', f'{SEL}:Select.__init__', f'{SEL}:Select.__bool__', f'{SEL}:Select.__call__', f'{SEL}:Select._merge', f'{SEL}:SelectableShortcutFactory.run', f'{REC}:RecordBase._to_dict', f'{REC}:RecordBase.from_instance')

P('C113', 'Which __init__, __setattr__ and __hash__ a record class has, and when a class statement warns',
  'Whatever the class body and the bases define: a frozen record class has the __setattr__ and __hash__ of the library, a non-frozen one has those of object and None. Its __init__ is that of the nearest class in the method resolution order whose body defines one. Calling the class runs the __init__ of the class of the result once, after construction, with the arguments of the call, iff the result is an instance of the class called; what it raises, the call raises. A class statement warns once for each of the three names in its body (for __hash__ also if the body defines __eq__), and if a base has an __init__ from neither object nor RecordBase. A class whose statement does not warn has the initializer of RecordBase, which does nothing. (The two warning texts, that the __init__ of a body is overridden and that the __init__ of a parent is not called, are refuted by counterexamples.)',
  'all programs of class statements, class bodies, resolution orders and calls', 'All hierarchies; the unit tests try a mixin with an __init__ after a record base only.', f'{REC}:RecordBase.__init_subclass__', f'{REC}:RecordBase.__init__', f'{REC}:RecordBase.__new__')

P('C114', 'Frozen records as keys of dicts and members of sets',
  'If field values respect the contracts of == and hash, a dict with frozen records as keys (a set of frozen records) answers by class and field values: a lookup never raises and finds exactly what was stored last under an equal record, if it was not removed since; len counts the different records in it. This holds in any order of storing, looking up and removing with equal or identical records, of hashing, comparing and exporting the records and of attempts to assign to their attributes in between, and whether hashes collide or are cached. If hashing the record, or comparing it with the first stored key of the same hash, raises (say, after a field was deleted), so does the operation, and the entries stay as they are. A record of a non-frozen class is no key: each such operation raises TypeError and changes nothing. (That a record in a dict is found again whatever is done with it is refuted by a counterexample: after deleting a field of the key, the entry is not found under an equal record.)',
  'all programs of dict operations and record operations; all frozen classes and records', 'All interleavings of dict and record operations; the unit tests hash single records.', f'{REC}:RecordBase.__hash__', f'{REC}:RecordBase.__eq__', f'{REC}:RecordBase.__setattr__', f'{REC}:RecordBase._to_dict')

P('C115', 'Sorting records of an ordered class',
  'If the values of the fields that are not excluded from the ordering are totally ordered, sorting any list of records of an ordered class by any stable comparison sort (as sorted and list.sort are) never raises. The result contains the records of the list, ordered lexicographically by these fields; records that agree in all of them stay in the order of the list. It does not depend on the algorithm, and sorting the list in another order gives, position by position, records that agree in all these fields. Two or more records of a class that is not ordered cannot be sorted: TypeError. (That the sorted list depends only on which records are sorted, not on their order, is refuted by a counterexample with an excluded field.)',
  'all lists of records of any length, all comparison sorts, all total orders of field values', 'All lists and sorting algorithms; the unit tests compare pairs of records and never sort.', f'{REC}:RecordBase.__lt__', f'{REC}:RecordBase._check_comparable', f'{REC}:RecordBase.__ordering_key')

P('C116', 'eval(repr(record)) is an equal record',
  'If the repr of every field value is a single argument (balanced brackets and string literals, commas only inside them), the repr of a record reads as a call of its class with exactly the exported entries as keyword arguments, each value as its own repr; it is then a single argument itself, so records can be nested. Two such records have the same repr exactly if their classes have the same name and they show the same fields in the same order with values of the same repr. If moreover the name of the class is in scope, eval restores the shown values up to equality, the fillers keep the restored values, post_new does nothing and no field is named self, cls or arg, then eval(repr(r)) is a record of the same class that equals r, for all export options of __repr__ that drop nothing but defaults. (That records of equal repr are equal whatever the repr of their values looks like is refuted by a counterexample.)',
  'all records, all reprs of values, all evaluators, all export options', 'All records and values; the unit test evaluates the repr of one record with two numbers.', f'{REC}:RecordBase.__repr__', f'{REC}:RecordBase._to_dict')

P('C117', 'Ordering and sorting records of a class together with records of its subclasses',
  'Consider ordered classes of one line of descent (of any two, one is reached from the other by going to the first record parent), and records of them whose non-excluded field values are totally ordered. The comparisons never raise: the first common field in which two records differ decides, and of two records that agree in their common fields the one with fewer fields is smaller. <= is total and transitive, < is its strict part, > and >= are the reflections, and a <= b <= a iff the same fields count in both classes and the records agree in them. Any stable comparison sort of a mixed list of such records succeeds and orders it this way. (That the own fields of a record decide when it is compared with a record of any subclass is refuted by a counterexample: with a second parent, a field of the first parent is compared with it.)',
  'all class lines of any length, all lists of records, all comparison sorts', 'All hierarchies and lists; the unit tests compare pairs of records of one class and never sort.', f'{REC}:RecordBase.__lt__', f'{REC}:RecordBase.__ordering_key', f'{REC}:RecordBase.__init_subclass__')

P('C118', 'What the class of a rebuilt container gets, and when the elements are filled',
  'When filling an element of a container field (list, set, deque, variadic or fixed-length tuple, sequence, ...) changes it, the class of the container is called with an iterator over the elements before it (the same objects, not filled again), the changed element, and the elements after it, each filled when the constructor asks for it. This does not depend on whether the container can be sliced. A constructor may stop asking at any time, by returning or raising: elements it did not ask for are not filled. For constructors that take all elements first, or none, this is C34 and C41. A set hashes each element before the next one is filled: the set stored and the effects are those of a class that takes all elements first, but a filled element that cannot be hashed raises TypeError at once, and later elements are not filled. (That a set field with an element that fails raises the exception of that element is refuted by a counterexample.)',
  'all containers, element fillers and constructors that take elements one by one', 'All lengths, positions of the change and constructors; the unit tests rebuild lists, tuples and deques of a few elements, and no sets.', f'{TYP}:_split_at', f'{TYP}:GenericIterableFiller.bind', f'{TYP}:TupleFiller.bind', f'{TYP}:GenericIterableFiller.reconstruct')

P('C119', 'Sharing records and Selects between threads',
  'Several threads may hash, compare and export the same records, try to assign to frozen ones, and apply the same Selects (made from re-iterable arguments; each to a dict of its own) at the same time, as long as no thread changes a field of a record: however their accesses to attributes and to the caches of hashes and truth values are interleaved, each operation returns or raises what it does in a single thread; the fields do not change, and at every moment the caches are empty or right. No thread waits for another: an operation makes a bounded number of accesses (hash: fields + 3; ==: 4 * fields + 6; to_dict: fields; select: 3). If a thread assigns to the fields of a non-frozen record, this ends: a comparison in another thread may answer True although the records are equal at no moment, and an export may show values the record never had together (both by counterexamples).',
  'all classes, records, Selects, numbers of threads, lists of operations and schedules', 'All interleavings of any number of threads; the unit tests use one thread.', f'{REC}:RecordBase.__hash__', f'{REC}:RecordBase.__eq__', f'{REC}:RecordBase._to_dict', f'{SEL}:Select.__bool__', f'{SEL}:Select.__call__')

P('C120', 'Classes that override to_dict',
  'hash, == of frozen records, repr, deepcopy and pickling call the to_dict of the class. Whatever an override does: a hash once returned never changes, and == True means that all fields are equal and that both records have the same hash from then on; among frozen records that have been hashed, == is an equivalence, True iff hashes and fields are equal, and does not call to_dict. In a non-frozen class it plays no part in ==. If the override returns pairwise equal hashable values for records with equal fields, new frozen records are equal iff their fields are. copy.deepcopy builds the copy from what the override returns: an extra key raises TypeError, a required field left out makes it raise, and a field with a default that is left out gets the default instead of the value of the record; pickling restores the attributes of the record even then, but unpickling still raises if a required field is left out. (That frozen records with equal fields are equal is refuted for overrides by a counterexample.)',
  'all overrides (any user code that returns a dict or raises), classes and records', 'All overrides; the unit tests have no class that overrides to_dict.', f'{REC}:RecordBase.__hash__', f'{REC}:RecordBase.__eq__', f'{REC}:RecordBase.__deepcopy__', f'{REC}:RecordBase.__getnewargs_ex__', f'{REC}:RecordBase.to_dict')

P('C121', 'What a deep copy shares, with the original and within itself',
  'Take a list, dict or record of any graph of lists, tuples, dicts with string keys, records and immutable objects, where the fields of the records keep the values they get, post_new does nothing, no field is named self, cls or arg, and no record is reachable from its own attributes. If copy.deepcopy of it returns, each object reached has exactly one copy: objects that share a part have copies that share the copy of the part, and different objects have different copies. An immutable object (or tuple of such) is its own copy; any other copy is a new object with the copies of the parts in the same places, except that a field equal to its plain default gets the default object itself. The originals do not change. Hence whatever is reachable from the copy is new, immutable, or part of the default value of a field. The only exception is RecursionError, and if no chain of references is longer than R, 2R + 2 nested calls of deepcopy are enough. A record that is its own first exported value cannot be deep-copied, whatever the recursion limit: RecursionError. (By counterexamples: a mutable default value is shared with the copy; copies of records in a tuple do not share the copy of what the records share; the copy of a record that is reachable from itself through a list does not have the cycle.)',
  'all graphs of objects, with sharing and with cycles through lists and dicts', 'All graphs; the unit test copies one record that refers to another.', f'{REC}:RecordBase.__deepcopy__', f'{REC}:RecordBase.to_dict', f'{REC}:RecordBase.from_mapping')

P('C122', 'Records inside records, lists, tuples and dicts: == and hash at any depth',
  'Let the objects of a program be numbers, strings and the like, whose == is an equivalence and whose hashes agree with it, and lists, tuples, dicts with string keys and records (frozen or not, hashed before or not) that contain each other to any depth, without cycles, where the values of frozen records other than defaults are hashable. Then == of all objects is an equivalence, and equal hashable objects have equal hashes. Two objects are equal iff they are trees of the same shape: lists and tuples of the same length, dicts with the same keys, and records of the same class at the same places, with equal leaves. An object is hashable iff it is a hashable leaf, a tuple of hashable objects, or a record of a frozen class. So what is said of field values with a well-behaved == and hash elsewhere holds for fields with such objects.',
  'all acyclic graphs of objects of any depth', 'All depths and shapes; the unit tests compare records with numbers and strings in their fields.', f'{REC}:RecordBase.__eq__', f'{REC}:RecordBase.__hash__', f'{REC}:RecordBase.to_dict')

P('C123', 'Ordering records whose fields hold records and sequences',
  'Let the objects be as in C122, and let records be compared by their class, and two lists or two tuples by their first elements that differ, else by their lengths. Records of an ordered class in which no field is excluded from the ordering, with values in the fields that are totally ordered (and whose == is <= in both directions), or are such records in turn, or lists or tuples of such objects (of any lengths), to any depth, are totally ordered: the operators do not raise, they are the lexicographic order of the fields and elements, < and > are the strict parts, and a <= b <= a iff a == b. (That this holds if a field of an inner class is excluded from the ordering is refuted by a counterexample: <= of the outer class is then not transitive.)',
  'all classes, all depths of nesting, all records', 'All triples of records; the unit tests compare records of numbers.', f'{REC}:RecordBase.__lt__', f'{REC}:RecordBase.__ordering_key', f'{REC}:RecordBase.__eq__', f'{REC}:exclude_from_ordering')

P('C124', 'Records read from nested mappings',
  'Let a class have at least two required fields, the built-in parsers, plain defaults, no post_new, no field named self, cls or arg, and fields declared with type checking as x: T (T a type, or None), as x: Annotated[Inner, Loose], where Inner is such a class in turn, or as lists, Optionals and Unions of these, to any depth. Call it with an object of plain data: mappings with string keys (other than self, cls and arg), records, and objects without mapping interface, none of them JSON text, none of them (unless a record of the class itself) having all required fields of one of the classes as attributes, and none fitting two members of a Union. The call makes a record iff the object is a document of the class: a mapping with all required fields and no unknown keys whose values are instances of T, records of Inner, documents of Inner, or lists of such, as declared; otherwise it raises ParseFailure, however deep the fault is. The record then holds for each key what the value means: the object itself if it is an instance of T or Inner or a list of such objects, else the record of Inner made from it or a new list of the meanings; the other fields hold their defaults. The same entries as keyword arguments make such a record, or raise an exception. (That mappings are read like this by every class is refuted by a counterexample: a class with one required field takes the mapping itself as the value of that field.)',
  'all such classes, all depths of nesting, all objects', 'All nestings and all faults at all depths; the unit tests read flat mappings.', f'{REC}:RecordBase.__new__', f'{REC}:RecordBase.parse', f'{REC}:RecordBase.from_mapping', f'{STD}:Loose')

P('C125', 'Pickled graphs of records: sharing, cycles and defaults',
  'Take any graph of lists, tuples, dicts with string keys, records and objects that pickle stores by value or reference (numbers, strings, classes), where the records have all their fields, post_new does nothing and no field is named self, cls or arg. If pickle.dumps returns and pickle.loads, in whatever process, returns too, every object reachable from the original has exactly one counterpart: different objects have different ones, so shared parts are shared and cycles are closed in the same places. Numbers and the like are their own counterparts, all others are new objects with the counterparts of the parts in the same places; a record has the same class, the same attributes (also those equal to a default: nothing is taken from the defaults) and the same cached hash. Nothing that existed in the process changes. Loading does not fail if the fields of the records keep whatever they get. Storing raises nothing but RecursionError; with B lists and dicts, and no chain of more than R references out of tuples and records, R + (R + 1) * B + 1 nested calls are enough. If a cycle through tuples and exported attributes of records only is reachable, storing raises RecursionError whatever the limit.',
  'all graphs of objects, with sharing and cycles', 'All graphs; the unit tests pickle single records with numbers in their fields.', f'{REC}:RecordBase.__getnewargs_ex__', f'{REC}:RecordBase.to_pickle', f'{REC}:RecordBase.from_pickle', f'{REC}:RecordBase.to_dict')

P('C126', 'Nested records exported to nested mappings (or JSON) and read back',
  'Take a record of a class as in C124, with lists, records and data as declared in its fields, to any depth, and replace it and the records in it by mappings with the entries of their to_dict, called with any options that leave out nothing but defaults (as json.dumps(r.to_dict(), default=lambda x: x.to_dict()) and json.loads do, say); records may also be left in place, and data replaced by equal data of the declared types. If == of the defaults of the classes is that of trees (C122) and the objects are as in C124, calling the class with the outermost mapping makes a record that is a tree of the same shape as the original: a record of the same class at each place, lists of the same length, equal leaves; by C122, the two are equal. The same holds for the entries as keyword arguments, and for from_json with a text that json.loads reads as the mapping. Conversely every document of the class is such an export of the record made from it (for suitable whitelists): reading loses nothing. (That an export can always be read back is refuted by a counterexample: a Union of two classes with the same fields takes the record but refuses the mapping.)',
  'all such classes and records, all depths of nesting, all options of to_dict at every level', 'All nestings and options; the unit tests export and read flat records.', f'{REC}:RecordBase.to_dict', f'{REC}:RecordBase.from_json', f'{REC}:RecordBase.from_mapping', f'{REC}:RecordBase.parse', f'{REC}:RecordBase.__new__')

P('C127', 'Deep copies and unpickled graphs are equal to the originals, at any depth',
  'Take a list, dict or record as in C121 (for copy.deepcopy) or any object as in C125 (for pickle), where no object reachable from it contains itself, the numbers, strings and the like are equal to themselves, and values equal to the default of their field are trees of its shape (C122). If copy.deepcopy returns, the copy is a tree of the same shape as the original, with records of the same class in the same places and equal leaves. If pickle.dumps and pickle.loads return, in a process in which the original still exists unchanged, so is the result of loads. By C122 the copies are equal to the originals, and their hashes agree if they are hashable.',
  'all acyclic graphs of objects, of any depth, with any sharing', 'All graphs; the unit tests compare copies of single records.', f'{REC}:RecordBase.__deepcopy__', f'{REC}:RecordBase.__getnewargs_ex__', f'{REC}:RecordBase.__eq__', f'{REC}:RecordBase.to_pickle', f'{REC}:RecordBase.from_pickle')

P('C128', 'Frozen records of immutable values never change, and neither do their == and hash',
  'If everything reachable from an object is a number, a string or the like, a tuple, or a record of a frozen class, then nothing a program does afterwards - changing lists and dicts, assigning to records, hashing, comparing and exporting them, making new objects, in any order, whether the operations raise or not - changes any of these objects (up to cached hashes), as long as no attribute of them is deleted; so it never changes which of these objects are equal (C122). A frozen record whose field values keep their hashes keeps its own, whether it was computed before or not. A hash that was computed once is returned forever, even if attributes are deleted or the objects in the fields change. (That a frozen record that can be hashed never changes is refuted by a counterexample: a field may hold a list that is equal to its default.)',
  'all programs, all graphs of objects, with sharing and cycles', 'All interleavings of operations on all objects; the unit tests assign to one field of one record.', f'{REC}:RecordBase.__setattr__', f'{REC}:RecordBase.__hash__', f'{REC}:RecordBase.__eq__')


P('C129', 'Exactly which field declarations are accepted',
  'A class can be created exactly if all its field names are distinct, it has a field, pre_bind adds tokens to own fields only, and every '
  'own declaration is legal: a type without parts, with tokens that all fit it, without coercion tokens if it goes unchecked and without '
  'an abstract class if it is checked exactly; a Union of types that are legal with the tokens of the Union added; a container whose '
  'tokens are legal on its class, whose parts are legal by themselves, and which does not go unchecked around a checked part; a generic '
  'that the library cannot look into, without checked parameters; or a hint that cannot be interpreted, without tokens and in a class '
  'that does not check by default. So a token that does not fit is refused wherever it is in a hint; a class that does not check accepts '
  'every hint without tokens; and a class that checks by subclass accepts every hint without tokens whose parts can all be checked.',
  'all hints of any depth, tokens anywhere in them or added to whole fields in pre_bind, and class hierarchies',
  'All nestings of hints and tokens.', f'{GET}:get_filler', f'{TYP}:UnionFiller.bind', f'{TYP}:GenericFillerN.bind',
  f'{FIL}:AnnotatedFiller.bind', f'{REC}:RecordBase.__init_subclass__')

P('C130', 'Equivalent ways to write a type make the same field',
  'Any and object, None and type(None), Callable[...] and callable, List (bare or with a type variable) and list, a NewType and its '
  'supertype (unless that is Annotated) make the same filler, with or without Annotated tokens, also as parts of unions and parametrised '
  'types at any depth; and the library reads every hint as the table of supported types says. (That this also holds inside Type[...] is '
  'refuted by a counterexample: Type[Any] refuses classes that Type[object] takes.) A mapping type with another number of parameters '
  'than two is refused with ValueError; further parameters of list, set, deque and the like are ignored; a parametrised class that is '
  'not in the table cannot be interpreted, so that it takes no tokens and is not checked.',
  'all hints of any depth, with type variables, parameters and tokens anywhere',
  'All nestings of all spellings.', f'{GET}:get_filler', f'{GET}:get_annotated_filler', f'{TYP}:_typing', f'{TYP}:has_args')

P('C131', 'Which records that contain each other can be printed, and that copies print the same',
  'Take records with all their fields that contain each other, also in lists, tuples and dicts. repr(x) raises RecursionError, whatever the '
  'recursion limit, if x shows (in fields other than defaults, as elements or as values, at any depth) a record that is shown in itself '
  'through fields of records only. Otherwise, if n objects are shown, repr(x) is a text, which does not depend on the recursion limit once '
  'that allows for (n + 2) * (n + 2) nested calls: cycles through a list, tuple or dict are cut off there as [...], (...) or {...}. '
  'RecursionError is the only exception. The text of a record is the qualified name of its class and, in parentheses, the shown fields with '
  'the texts of their values in order of declaration; that of a list, tuple or dict consists of the texts of its elements in order. If the '
  'texts of leaves and keys are single arguments, so is the whole text, at any depth, and that of a record reads as a call of its class '
  'with exactly these keyword arguments. Objects that look alike, cycles or not, have the same repr at every recursion limit; in particular '
  'a deep copy and an unpickled object have the same repr as the original, if == with defaults does not tell them apart. (That every record '
  'can be printed if the limit is high enough is refuted by a counterexample: a record that is the value of its own field.)',
  'all graphs of records, lists, tuples and dicts, all recursion limits',
  'All finite graphs and all recursion limits.', f'{REC}:RecordBase.__repr__', f'{REC}:RecordBase.to_dict', f'{REC}:RecordBase.__deepcopy__')

P('C132', 'What comparing records that contain each other does, and which cannot be compared',
  'Take records of classes that are not frozen, with all their fields, that contain each other, also in lists, tuples and dicts. Whether x == '
  'y returns, and what, does not depend on the recursion limit once it returns. It returns True, if the limit is high enough, iff x and y '
  'are finite trees of the same shape with equal leaves, where elements of containers may also be the same object; if it returns False, '
  'there are unequal leaves or things of different shape at the same place of both. It returns False at once, whatever is inside, for '
  'objects of different kinds, lists or dicts of different lengths and records of different classes. RecursionError is the only exception, and is not raised '
  'if the limit exceeds the length of the longest chain of references from x: in graphs without cycles as in C122, == returns if the limit is '
  'high enough, and returns what is said there. An object that has something inside that is inside itself '
  'cannot be compared with a copy that shares only immutable objects with it, such as the result of pickling and unpickling it, or its deep '
  'copy (see C121) if no field has its default as its value: == raises RecursionError whatever the limit. If leaves are equal to themselves, a list, tuple or dict is always equal to itself, and a record is '
  'equal to itself or raises RecursionError, which it does if its comparison with itself leads back to itself: if it is inside itself '
  'through fields only. (By counterexamples: a record need not be equal to its copy, or to itself, however high the limit; and a record with a default that contains itself is equal to its deep copy, which shares the default.)',
  'all graphs of records, lists, tuples and dicts, all recursion limits',
  'All finite graphs and all recursion limits.', f'{REC}:RecordBase.__eq__')

if __name__ == '__main__':
    with open(OUT, 'w') as f:
        for r in rows:
            f.write(json.dumps(r, ensure_ascii=False) + '\n')
    print(len(rows))

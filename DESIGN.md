# Formal model of uttut in Lean 4 — design

`/verif/lean` is a Lake project (Lean 4.33.0, core Lean plus a few single Mathlib modules).
Every definition that models code carries a comment with the file and lines of `/repo` it models.

## 1. Layout

| module (`Verif/…`) | contents |
|---|---|
| `Model/Py.lean` | Python primitives: exceptions as values, slices, slice assignment, stable `sorted`, `list(set(..))`, dicts as association lists in insertion order, `str.find`, `str.split`, the `str.isspace` table |
| `Model/Edit.lean` | `Replacement(Group)`, `Span(Group)`, `str2str`, `lst2lst`, `str2lst`, `lst2str` (`pipeline/edit/*`) |
| `Model/Label.lean` | `label_propagation.pyx`, `label_transducer.py` |
| `Model/Base.lean` | label aligners (`ops/base.py`), the loops shared by pattern recognisers, tokenisers and element-wise operators |
| `Model/Regex.lean` | the fragment of `re` used by the operators (ordered backtracking semantics) |
| `Model/Ops.lean` | all operators of `pipeline/ops` with their label aligners, and `ops/tokens.py` |
| `Model/Trie.lean`, `Model/Hash.lean` | `ops/utils/trie.py`, `consistent_hash.pyx`, `MurmurHash3.cpp` (x86_32), UTF-8 |
| `Model/Elements.lean` | `elements.pyx`, `pipeline/utils.py`, `expand_by_entities.pyx`, `toolkits/*`, `entity_overlapping_ratio.py`, `get_unique_entities.py`, `utils.py` |
| `Model/Objects.lean` | entities, intents, lists and data as objects with identity: constructors, `expand_by_entities`, `pack_to_datum`, `copy_intents`, assignments to attributes, changes of lists in place |
| `Model/Ordinal.lean` | `transformers/ordinal_label.py` |
| `Model/Json.lean` | Python values used as operator arguments; the standard `json` encoder and decoder as used by the code |
| `Model/Operator.lean` | `ops/base.py` (classes, argument binding, config capture, serialization), `ops/factory.py` |
| `Model/Pipe.lean` | `pipe.py`, `intermediate.py`; a heap of pipe objects with shared checkpoint dicts |
| `Model/Summary.lean` | `Pipe.summary`, `Operator.__str__` |
| `Model/History.lean` | sequences of `add`/`done` calls on `ReplacementGroup` and `SpanGroup` objects, with caught exceptions |
| `Model/Builtins.lean` | the 31 registered classes with signatures, constructors and types; `bert/*.py` |
| `Model/Args.lean` | operators as objects that share their list and dict arguments with the program |
| `Model/Extend.lean` | class statements of users and classes derived from `Tokenizer`, `PatternRecognizer`, `AddWhitespaceAroundCharacter` |
| `Model/Shared.lean` | token lists, label lists and aligners as objects: what is shared between a program, results of `transform` and aligners |
| `Model/Handles.lean` | iteration over pipes, intermediates as objects, programs that change `pipe.steps` and `pipe.checkpoints` in place |
| `Model/Float.lean` | `entity_overlapping_ratio` in IEEE 754 binary64 arithmetic, round half to even, exponents not bounded |
| `Model/Machine.lean` | the edit and label code and the operators once more, with wrapping 32-bit integers |
| `Model/Loaded.lean` | `pipe.py:52-176`, `:226-257`, `intermediate.py:27-41` for pipes whose checkpoints are any value, as `deserialize` leaves them |
| `Conform/*.lean` | the project's unit tests as checks on the model (tests of the model, see section 3) |
| `Model/Warnings.lean` | `edit/replacement.pyx:142-164`, `span.pyx:94-116`, `utils.pyx:32-102`, `label_propagation.pyx:118-169`, `str2str.py`, `lst2lst.py`, `str2lst.py`, `lst2str.py`, `pipe.py:27-50` and `bert/*.py` again, with the warnings they issue |
| `Model/Annotated.lean` | `edit/replacement.pyx:39-140` with annotations |
| `Model/Signatures.lean` | `ops/base.py:15-74, 143-144` for constructors with `*args`, keyword-only parameters and `**kwargs` |
| `Model/Reference.lean` | `bert/tests/tokenization.py:121-402`: the BERT tokenizer the tests compare the pipes with (without `validate_case_matches_checkpoint`, `printable_text` and bytes) |
| `Model/Double.lean` | `entity_overlapping_ratio` in binary64 with bounded exponents, subnormals, infinities, NaN; int and float rates |
| `Model/Noisy.lean` | operators, label aligners and pipes with the warnings of the edit functions they call |
| `Model/Reprs.lean` | `__repr__`/`__str__` of data (with `pprint.pformat` for lists), spans, replacements, groups |
| `Spec/*.lean` | small specifications, written without the model's helpers |
| `Lemmas/*.lean` | helper lemmas |
| `Props/*.lean` | the property theorems (one section per property, with non-vacuity `example`s) |

## 2. Modelling decisions

* **Exceptions** are values: `Except Exc α`, `Exc` lists the Python exception classes that the code can raise.
  `cpdef void`/C-int functions without `except` clause swallow exceptions; the committed generated C
  (Cython 0.29.1, `__Pyx_WriteUnraisable`) is taken as the reference for that behaviour.
* **Strings** are `List Char` (Unicode scalar values; Python's lone surrogates are not modelled).
* **Integers**: labels are `Int`. C `unsigned int` positions are `Nat`; the conversion checks (OverflowError)
  are modelled at the API boundary. Positions inside the edit code do not wrap in the main model: theorems that put a
  whole sequence through an edit assume, where the code converts, that lengths are below 2^32 (stated as a hypothesis).
  `Model/Machine.lean` has the wrapping arithmetic, and C91 proves that the two agree on all sequences of up to 2^31
  elements with fewer than 2^32 in the output; theorems without a bound hold of the compiled code within these limits.
  `_compute_output_length` is modelled with wrap-around and shown harmless. `Entity`/`expand_by_entities` use C
  `int`: conversions raise OverflowError outside [-2^31, 2^31) and are modelled.
* **Hash sets**: `list(set(xs))` = arbitrary permutation of the first-occurrence deduplication. The permutation is
  a parameter (`SetOrder`), and theorems quantify over it.
* **Loops** that may not terminate (regex search loop) are modelled with fuel; `none` = still running.
  Termination theorems show the fuel used by the operators is never exhausted.
* **Regexes**: AST with character classes, greedy `+`, concatenation, ordered alternation, one-character negative
  look-behind/ahead, `\A`, `\Z`; semantics = ordered list of match ends (Python's backtracking order).
  `ReplaceAwithB` takes an arbitrary search function satisfying the contract of `Pattern.search`.
* **Unicode tables**: `str.isspace`/`\s` listed concretely; decimal digits (`\d`), category `P*`, category `Mn` and NFD
  are parameters (structure `Unicode`); theorems needing facts about them state them as hypotheses.
* **JSON** is a concrete model of CPython's encoder (indent 2 / `ensure_ascii=False`, and default separators / ASCII)
  and decoder. The law `loads (dumps v) = v` is a theorem (tuples come back as lists), not an assumption. Floats, keys
  that are not strings and the recursion limit are not modelled; the number scanner rejects fractions and exponents.
* **Operators**: a class is a record (name, types, parameter names, defaults, constructor); the wrapper that
  `__init_subclass__` puts around `__init__` is modelled including its config capture. Constructor arguments of
  undocumented types are followed as far as C84 says (exceptions: header of `Model/Builtins.lean`). Attributes of an
  operator object do not change after construction.
* **Pipes**: value semantics in `Model/Pipe.lean`, plus a heap (`Heap`) in which a pipe object points to its step list
  and checkpoint dict, so that the sharing between `Pipe` and `Intermediate` and the independence of copies can be
  stated. Mutating `p.steps` or `p.checkpoints` directly from outside is in `Model/Handles.lean` (C87).
* **Data**: value semantics in `Model/Elements.lean`; `Model/Objects.lean` gives entities, intents, their lists and data
  an identity (a store with one table per class), so that sharing and assignments after construction can be stated. A
  name bound to no object is a NameError. One set object given to two entities by assignment is not modelled.
* **Floats** of `entity_overlapping_ratio` are rationals in C51; C88 rounds every operation (no overflow, subnormals, NaN);
  C99 has all of binary64 except the sign of zero and shows where C88 is exact.

## 3. Trusted base

* Lean's kernel; axioms used are at most `propext`, `Classical.choice`, `Quot.sound` (checked with `#print axioms`
  in the gate). No `sorry`, no new axioms, no `native_decide`/`bv_decide`.
* The correspondence model ↔ code was established by reading; the code was not run. As evidence for it,
  `Verif/Conform/*.lean` states every assertion of the project's own unit tests that the model can express (479 of the
  operators, about 200 of edits, elements, transformers, toolkits, pipes and BERT pipes) as a check on the model; all
  hold, and the build fails if one does not. The expected values are those written in the test files. These are tests,
  not proofs: no property of the manifest rests on them. Left out are assertions on texts (`repr`, `str`), on warnings
  and on annotations, and tests that replace library functions by mocks.
* CPython semantics of lists, dicts, `sorted` stability, `re`, `str` methods, `json`; Cython 0.29.1 error handling.

Not modelled: `repr`/`reprlib.repr` of Python's own values (parameters of `Pipe.summary`), texts of exceptions except those of C82, texts of warnings and where they are reported (which calls warn is C95), the `print` in `pipeline/utils.py:68`, annotations of
replacements outside `Model/Annotated.lean` (C96; never read by any code), `Entity.index` (never read), `setup.py`, object identity/aliasing except for
pipes (C64, C69, C87), data (C80), lists and dicts given to operators (C83) and lists given to aligners (C86), memory exhaustion, MurmurHash x64 variants
(not called), the C cast of the remainder in `get_kth_combination`
(exact for k ≥ 0), dict-typed label mappings with keys that are not strings, `Datum.has_intents` (`elements.pyx:176-178`).

Functions without a definition of their own, because the model's definition of their only caller contains their body:
`entity_overlapping_ratio.py:8-21` `check_utter_index_in_entity`, `ordinal_label.py:35-37` `not_entity_index` (a field),
`validation.pyx:1-8` (Python wrappers of the C functions below them), `ops/utils/trie.py:33-35` `__contains__`,
`ops/add_whitespace_around_punctuation.py:26-29` `_is_valid_char`, `ops/add_whitespace_around_word_n_zhchar.py:136-156` and
`ops/punctuation_except_endpoint_to_whitespace.py:60-88` (the aligner class and its label functions), `ops/base.py:229-236`
(abstract methods).

## 4. Per property plan

| id | what is modelled / how proved |
|---|---|
| C01 | `transformSequence` with its pre-sized output buffer; induction over the group against right-to-left slice assignment |
| C02 | `genInverse` with `dists`, set dedup, sort, validation; "pieces" decomposition of the input, swap of old/new |
| C03 | the inverse exists iff the inverse replacements are pairwise different, i.e. iff no run of touching deletions deletes a text twice (`DistinctDeletions`); the restored text is a permutation (counting argument); order-dependence by two `SetOrder` witnesses |
| C04, C05 | sortedness + permutation uniqueness of lexicographic sort done as two stable sorts |
| C06 | `add` model with swallowed exception |
| C07 | buffer invariant: written prefix is exact whatever the initial buffer length |
| C08, C09 | counter folds vs. `count`/first-index specification |
| C10–C13 | stable sort by `end`, tiling predicate; `str.find` at the cursor; reduce/expand by induction on spans |
| C14, C15 | aligner wrapper for any inner function; per operator from the piece decomposition |
| C16–C27 | regex semantics vs. maximal-run specifications; char-wise edit groups |
| C28–C35 | list operators by the same decomposition |
| C36–C38 | trie as finite map of nodes; invariant relating nodes to inserted words |
| C39–C42 | `split` specification; greedy `find` alignment; reduce/expand |
| C43–C52 | Datum constructor as decision procedure; induction over sorted entities; mixed radix bijection; rational arithmetic |
| C53–C56 | finite maps as association lists with unique keys |
| C57–C64 | pipe as state machine over abstract operators; invariants over histories |
| C65–C67 | Python argument binding as function on signatures; codec law |
| C68 | instantiation of pipes with the concrete operators |
| C69 | programs over a heap of pipe objects; invariant that only `add`, `add_op`, `+=` on a pipe change it |
| C70 | the pipe of the README: composition of the exact operator theorems for every maxlen and vocabulary |
| C71 | printed lines as a list; invariant checkpoint dict = names of the entries by position |
| C72 | relation between runs under two `SetOrder`s: per edit (inverse groups are permutations of each other, transducers that fill insertions uniformly), per operator, per class, per pipe |
| C73 | labels and text cut into the same parts; a part survives iff both maps fix it; two label maps that are each other's inverse on their images settle; every class by cases; a computed counterexample for pipes |
| C74 | a recursive definition of Python's argument binding (`Spec/Construct.lean`) equal to the model's; then the theorems on each operator |
| C75 | sorted disjoint entities are determined by membership; entities of a traceable datum = maximal blocks of its labels; token = maximal block between gaps |
| C76 | labels of the characters that are not white space are carried unchanged by the white space operators; tokens are those of one scanning function; both orders of two operators compared run by run or character by character; congruence from splitting `runSteps` |
| C77 | invariant over lists of calls; contents, exceptions and readability each characterised from the calls alone |
| C78 | `json.loads` equal to a grammar of JSON (`Spec/JsonText.lean`): soundness by induction on fuel, completeness by induction on the grammar; what is written is in the grammar; loading inverted step by step: `getItem`, `fromDict`, `restoreSteps` and `checkpointsOf` each equal to a relation on JSON values |
| C79 | each operator's exact description (C16-C46) is a homomorphism on pieces: runs, words, cuts and tokens of the whole are those of the parts where the condition holds (uniqueness of the division), labels likewise; converses by counting what the whole has less or more; pipes by induction on the steps |
| C80 | a store of objects; commands without target extend it by new objects, the others change one object; reading a datum depends only on its own objects (frame theorem by induction on the program); results of expansions are pairwise disjoint and new by induction on the combinations |
| C81 | `machanize` and `humanize` are characterised element by element (`Forall₂`); the way there and back composes these with C46, C75, C59 and the uniqueness of names and labels (C53) |
| C82 | `Model/Messages.lean` repeats the functions with the text of the exception; proved equal to the functions without text, and each text equal to a description of the first faulty element; numbers in texts read back with the number parser of the JSON model |
| C83 | `Model/Args.lean`: arguments are values or objects of a store; programs as lists of commands; binding and capture of objects proved to commute with reading them; invariants over all programs by induction |
| C84 | the constructors of `Model/Builtins.lean` take any value; what a value means as words, number, token, vocabulary is specified in `Spec/Arguments.lean`; then the theorems on each operator |
| C85 | `Model/Extend.lean`: class statements as steps on the registry, user functions as parameters; placement of tokens specified as leftmost layout (`Spec/Extend.lean`), proved unique; labels by segments with arbitrary label functions; alignment of mixed pipes from `Faithful` step by step |
| C86 | `Model/Shared.lean`: a store of token lists, label lists and aligners; the inverse of an edit computed from a changed list has the same places and only other old values, or does not exist; invariants over all programs by induction; built-in classes connected by cases |
| C87 | `Model/Handles.lean`: Python's iteration protocol by induction; changes in place as writes to the heap of C69, whose refinement to pipe values is extended to them |
| C88 | `Model/Float.lean`: rounding is shown to give the nearest float (`Spec/Float.lean`), to be monotone and exact on floats; sums by induction, the error by the standard bound |
| C89 | `Spec/Order.lean` (`LabelsInOrder`: a monotone map of places); every label function returns labels of its segment, no longer than asked, so the loop over a chain of replacements keeps the order; then case analysis over the 31 classes; pipes by transitivity |
| C90 | `Spec/Raise.lean` (`Step`: kinds, growth and exceptions of each operator made by name; `Assembled`: steps that fit together); case analysis over the operators from the exact outputs (C74, C75 and the operator theorems), then induction over the steps with the composed bound; predictions from C81 |
| C91 | `Model/Machine.lean`; the loops agree as long as no variable passes 2^32 (invariants over the groups that operators make); all 31 classes by cases, registries by recursion, pipes by induction on the steps; the way past the limits is computed in general (no evaluation on lists of 2^31 elements) |
| C92 | `Spec.Equal` is an inductive relation without recursion on the model; every class's constructor respects it (all 31 classes by cases), trie and set arguments by their membership; pipes by induction on the steps |
| C93 | `Spec/Service.lean` composes the whole service; C66 (the same operators come back), C72 (the order of sets does not show) and C56 (the transformer comes back), and that packed data have no replacements |
| C94 | `Model/Loaded.lean` has the methods of `Pipe` again, for any value as checkpoints, with the exceptions in the order in which Python meets them; `C94_agrees` proves that both models agree on dicts of ints, the other theorems go through the kinds of values |
| C95 | `Model/Warnings.lean` has the functions again in a monad of warnings, with the `len(group)` calls the code makes; `Issues` (`Spec/Warnings.lean`) is closed under sequencing, and each function is proved to end as its version without warnings |
| C96 | leaving out the annotations commutes with every call (`C96_same`); the first item with a given replacement is the same before and after `done`, so by induction over the calls it is the one added first |
| C97 | binding is shown to be exactly a declarative description of Python's rules (`Gets`); configs are then the parameters' values and the other keyword arguments, and a call with them gets the same without `*args` |
| C98 | the reference tokenizer, modelled function by function, is reduced to the same scanner as the pipes' tokenizers (cutting the pieces of a coarser division gives the finer one); its word piece loop to that of `SpanSubwords`; the vocabulary by induction over the lines |
| C99 | numbers that are multiples of 2^-1074 or normal round alike with and without bounds on the exponent; partial sums by induction up to the first that overflows; a quotient too small to be normal vanishes in `1 - q` either way |
| C100 | per way of building a group: `done` has succeeded before anything asks for its length, so C95 gives the functions without warnings; all classes in one list, pipes by induction |
| C101 | texts read from the front (first newline, first bracket, numbers) and, for entities without replacements, from the back (last spaces) |
| C102 | labels as marks (counts, label); each output mark has a source in the same segment of the input, so a marked stretch cannot be entered |
| C103 | segments again, from output to input: if a segment of the input has the label anywhere, all of it fits and its segment of the output has the label; if a segment of the output fits, so does its segment of the input |
| C104 | the second call returns its input and passes all labels through; where it does not, the lengths of the outputs differ |
| C105 | counting, majority vote, edits and packing commute with renumbering the labels; then class by class |
| C106 | a choice of alternatives for the parts is a choice of texts for the entities; cutting at the entities and weaving the texts in again |
| C107 | the lemmas of C89 and C105 for edits and spans with any label function; a recognizer of the whole text |
| C108 | composition of the single results (C28, C30, C31, C58); index arithmetic on lists |
| C109 | induction over the steps, with the labels of the characters that are not white space as invariant (the lemmas of C76 for one step) |
| C110 | induction over the steps: the words of the result, for every set of cut off characters; then C109 for the labels |
| C111 | induction over the framing steps; each is moved past the translating step with the exact label formulas of C28 and C30 |
| C112 | mutual induction over the JSON writer: the characters of the text; induction over the occurrence for the converse |
| C113 | induction over the pieces of a text (runs of either class, other characters); each step works in parts (C79), so the two orders agree piece by piece; induction over the permutation; the pairs not listed differ on one text, computed for the ASCII table and carried to any table that agrees on the characters of that text |
| C114 | the output of each step as a function of the input (C16-C42, C74, C84); that function is analysed by induction over characters, runs or tokens |
| C115 | the matcher with the longer list never uses a new word, so it makes the same choices (induction over the text or the pieces of a token); numbers of names depend only on the names before them |
| C116 | cutting and filling up as functions on lists (C30); a translating step translates each token by itself and passes labels through (C111), so the lengths do not matter to the steps behind |
| C117 | the output of every step as a function of its input (C16-C41); that function has its values in the set described and is the identity on it, or a preimage is given |
| C118 | the pieces of a word are one piece without the mark `##` and then pieces with it (C33), so the output divides into words in one way; induction over the words |
| C119 | the two halves of settling survive a step before that returns labels and a step after that keeps them; steps that move labels compose to such a step, as partial injections do; so do steps that also copy labels, where a label that comes back is what the copies agree on apart from zeros; data by packing and unpacking (C46) |

Properties that are false of the code as a naive user would state them (C03, C06, C09, C24, C29, C41 docstring, C45,
C61, C62, C63) are stated as what the code really does, with concrete witnesses.

## 5. Findings about the code

Each is a theorem (id in brackets) or follows from one; none is a claim that the authors intended otherwise.

1. `ReplacementGroup.add` with start > end is silently swallowed (C06).
2. The inverse edit raises AssertionError exactly when a run of touching deletions deletes the same text twice (C03, C14, C25). With different texts it succeeds and the labels are right, but the restored text depends on set order.
3. A pattern with a zero-width match makes the recogniser loop forever (C24).
4. `add_op` with a used checkpoint name raises KeyError after the step has been appended (C61).
5. `pipe += other` shifts the other's checkpoints by len(self) + len(other): reading them raises IndexError (C62).
6. `pipe[:k]` with checkpoints raises TypeError; checkpoints beyond the stop are kept; a negative start shifts every
   checkpoint by +k (C63). A slice with a step can join steps of different types.
7. `AddSosEos` on `[]` yields the two tokens in set order (C29).
8. `Datum` accepts entities that end beyond the utterance or start at negative positions, and construction depends
   on the given order for entities with equal starts (C43).
9. `pack_to_datum('', [], [])` raises IndexError (C46).
10. Labels outside unsigned 32 bit: reducing gives 0 silently, expanding raises OverflowError (C09).
11. `StripAccentToken` raises AssertionError when stripping changes the length (C27), and when it keeps the total
    length but shifts characters, labels are misaligned silently; Hangul syllables make the BERT pipes raise (C68).
12. Inserting a word twice in the trie raises AttributeError; the empty word is ignored (C36).
13. `SpanGroup` with several empty spans depends on the given order (C10).
14. `entity_overlapping_ratio` of empty utterances raises ZeroDivisionError (C51).
15. `OrdinalLabel.from_raw_dictionary` raises ValueError when `not_entity_index` is outside the range; naming an
    entity "__NOT_ENTITY__" is silently possible; humanizing the not-entity label raises KeyError (C53–C55).
16. `is_abstract` is always False when a subclass is created, so base classes are registered too (C67).
17. `consistent_hash` modulo 0 is 0 (C32).
18. `str2lst.apply` with an empty span group raises IndexError (C11).
19. `AddEndToken` is not registered by importing the package.
20. `CharTokenizer` keeps whitespace characters, contrary to its docstring (C41).
21. `Intermediate` shares the pipe's checkpoint dict (C64).
22. `SpanSubwords` maps "" to []; adjacent empty tokens make the inverse raise AssertionError (C34).
23. `get_kth_combination` and `expand_by_entities` take C ints: OverflowError from 2^31 on (C48, C50).
24. A subclass that inherits `__init__` loses positional arguments and defaults from its configs (C65).
25. Tuple arguments become lists by serialization, so the restored operator is not == (C66).
26. NFD can create punctuation after the BERT spacing steps: "a≠b" stays one token "a=b" (C68).
27. The README's example output `[0, 6, 2, 7, 1, 3, 3]` is impossible: `maxlen` is 5 and the code gives
    `[0, 6, 2, 7, 2]` (C70). `Pad` cuts off `<eos>` whenever the words fill the list. The vocabulary entries `_int_`
    and `_float_` are never used, since `EngTokenizer` splits at underscores.
28. `SpanGroup.__eq__` compares lengths and sets, so groups with repeated empty spans can be equal though they split
    a string differently (C10).
29. `Pipe.summary` of `p + q` hides q's checkpoints but counts them (C71, consequence of C62); after more steps are
    added, q's checkpoint names resolve to outputs of wrong steps (C62). `Operator.__str__` prints `, ...` after every
    dict argument, complete or not (`{}` becomes `{, ...}`).
30. Carrying labels through a pipe and back is not a projection: a second round can change the labels again, although
    every single operator is stable after one round (C73).
31. Entities of several words never come back from tokenizers that cut at white space: the white space gets label 0, so
    "New York" is recovered as two entities (C75). Two neighbouring entities with one label come back as one.
32. Group objects are not closed by `done`: what is added later is neither sorted nor checked, and the group can still be
    applied ("abxybc" instead of "ybx"); `done(skip_sort=True)` leaves the set's iteration order; a `done` that raises
    leaves an earlier finalised group readable. Overlapping replacements can never be removed again (C77).
33. `Pipe.deserialize` takes checkpoints over unchecked (C78). A slice with a step, such as `p[::-1]`, is not checked for
    steps that fit together (C63).
34. Two data made from one list share its entity and intent objects: assigning to an entity changes both, and makes a
    valid datum invalid without any check (C80). `expand_by_entities` of a datum without entities returns the given
    object itself, of a datum with entities only new objects.
35. `OrdinalLabel` lets the user choose `not_entity_index`, but `unpack_datum` and `pack_to_datum` always use 0 for
    "no entity": with another index the entity labelled 0 is lost on every way through labels, and labels predicted with
    the chosen index make `humanize` raise KeyError (C81).
36. The message "the new_value of {i}-th element is not a(an) ..." counts in the iteration order of a set, after
    removing duplicates: it does not say which `add` is at fault, and changes with the hash seed (C82). `repr` of an
    entity does not show where one replacement ends and the next begins (C82).
37. Operators keep the caller's list or dict. After a change in place the numbering operators and `SpanSubwords` use
    unchecked contents, and a word operator saves words it does not use: what is loaded is `==` to what was saved but
    cuts differently (C83, `C83_words_drift`).
38. Most constructors do not check their arguments. `Pad("5")`, `Pad(-1)`, `ReplaceAwithB("x", 5)`, `SpanSubwords(None)`
    are made and fail only when used, the last two only for some inputs; a text given as `user_words` is taken as its
    characters, a text given as `vocab` as all its parts (C84).
39. A class statement that lacks `_input_type`, `_output_type` or `_label_aligner_class` raises AssertionError after the
    name has been registered: the name stands for a class that never works, and the corrected class raises KeyError
    (`C85_left_behind`, `C85_outcomes`).
40. A tokenizer that drops text may have its tokens placed at an earlier occurrence: dropping the first word of "ab ab",
    labels of the first word are read and written (`C85_misplaced`).
41. `class MyPad(Pad): pass` forgets arguments passed by position: `MyPad(2) == MyPad(3)`, and neither can be loaded
    after saving (`C85_inherited_pad`).
42. Aligners of edits of lists read the caller's list when `inverse_transform` is called: shortening a list (also one taken
    from the intermediates) after `transform` can make it raise ValueError (`C86_change_breaks`), but never gives other
    labels. Null aligners return the caller's own label list (`C86_labels`).
43. `pipe.steps` and `pipe.checkpoints` hand out the pipe's own list and dict, unchecked; changing the dict also changes
    what earlier intermediates return under a name (`C87_edited_name`).
44. With a very small positive `wrong_penalty_rate` `entity_overlapping_ratio` is exactly 1.0 for different labels, since
    the penalty is lost by rounding (`C88_one_fails`; `C88_one` says from which rate on this cannot happen).
45. Past the range of `unsigned int` the edit code does not fail cleanly: an edit with 2^31 + 1 replacements returns a text
    in which a new value is missing (`C91_apply_wrong`), and `Pad` to 2^32 or more tokens returns the padded list with an
    aligner that raises for all labels (`C91_pad_past`).
46. A text with a checkpoint position that is no number loads. Adding the loaded pipe to another one with `+=` raises
    TypeError, but its steps are in the other pipe already (`C94_iadd`), which now does something else.
47. The three modules of `pipeline/bert` build their pipes with the deprecated `add`. A program that turns deprecation warnings
    into exceptions cannot import them (`C95_bert`).
48. An operator whose constructor takes `*args` loses the surplus positional arguments when it is saved: `configs` does not hold
    them. Loading gives another operator without complaint, and `==` says the two are equal (`C97_reload`, `C97_blind`). A
    keyword-only parameter left at its default is not in `configs` either, so an operator made with the default spelled out
    is unequal to one made without (`C97_unset`). No operator of the library has such a constructor.
49. `basic_pipe` and `full_pipe` differ from the BERT tokenizer they reproduce (`C98_differ`): `Lowercase` lowers ASCII letters
    only, so the accented capital of `UNWANTÉD` becomes `E` and `full_pipe` answers `[UNK]` instead of `un ##want ##ed`;
    punctuation is spaced out before accents are stripped, so `a≠b` is one token `a=b` and not three; control characters are
    kept (or separate words) instead of being left out; a combining mark raises AssertionError.
50. `entity_overlapping_ratio` with a rate that is NaN, infinite or an int too large for a float answers normally as long as
    no character has two different entities, and NaN, an infinity or OverflowError from the first such character on
    (`C99_unused`, `C99_special`); large finite rates give `-inf` (`C99_finite`).
51. `CharTokenizer` and `CustomWordTokenizer` after an operator that adds white space tear an entity apart: the added spaces
    become tokens with label 0 in the middle of it (`C102_torn`). `WhiteSpaceTokenizer`, `EngTokenizer` and `ZhCharTokenizer`
    drop them.
52. `PunctuationExceptEndpointToWhitespace` tears predicted entities: the label of the blank is not given back to the
    punctuation character, so "a-b" predicted as one entity comes back as the entities "a" and "b" (`C103_torn`). With
    `AddWhitespaceAroundPunctuation` it comes back as one.
53. `Token2Index` does not refuse a list of indices: a second call silently turns every index into the index of the
    unknown token (`C104_index`), while `Token2IndexwithHash` raises TypeError (`C104_index_hash`). `SpanSubwords` cuts
    its own unknown token if that is no entry of the vocabulary but can be cut into entries (example beside
    `C104_subwords_closed`), and `PureNum2Token` with an integer token cannot read its own output (`C104_pure_num`).
54. `expand_by_entities` with `include_orig=True` returns data twice if the value of an entity is among its own
    replacements: the value is appended to the sorted replacements without looking for it there (`C106_distinct`).
55. `Pad` behind `AddSosEos` cuts off the end token of a text with more than `maxlen - 2` tokens; a model trained on
    framed texts gets one without end, and nothing is reported (`C108_end_token`).
56. `Token2IndexwithHash` gives every unknown token the index of a listed one: a model cannot tell an unknown token
    from that one, and no index is kept for unknown tokens (`C114_hash`).
57. Adding to a list is not harmless: a new entry in the vocabulary of `SpanSubwords` can make a word unknown that was
    known (`C115_unknown`), a new user word can break an old one (`C115_breaks`), and a larger mapping gives tokens
    that are in neither mapping other indices in `Token2IndexwithHash` (`C115_hash_moves`).
58. `AddWhitespaceAroundPunctuation` gives any labels back, and so does `MergeWhiteSpaceCharacters` for those of its
    output, but one after the other they do not: with the labels 1, 2 on the text " ," the labels 1, 1 come back, because
    the label of the space also counts as one of the comma (`C119_order`).

## 6. Tests against wrong programs

`/verif/seeded/LOG.jsonl` has one line per edit of the model in a scratch copy: the definition, the edit, the claim it
breaks, the theorems that stopped compiling (or depend on a lemma that did) and the theorems that were tightened.

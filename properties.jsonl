{"id": "C01", "title": "Applying a replacement group is slice assignment", "statement": "For every input string (list) and every group returned by ReplacementGroup.add_all whose replacements start within the input, str2str.apply (lst2lst.apply) returns exactly the sequence obtained by executing `seq[start:end] = new_value` for the group's replacements from the last one to the first one. It never raises.", "quantifier": "all input sequences, all finalised in-bounds replacement groups, all element types, all hash-set iteration orders", "why_tests_cant": "the space of strings x groups is infinite; tests fix a handful of groups", "anchors": ["uttut/pipeline/edit/str2str.py:apply", "uttut/pipeline/edit/lst2lst.py:apply", "uttut/pipeline/edit/utils.pyx:_transform_sequence"]}
{"id": "C02", "title": "Inverse edit restores the original sequence", "statement": "For every sequence and every finalised in-bounds group in which no two touching replacements both have an empty new_value, inverse(seq, group) succeeds, has as many replacements as the group, and applying it to apply(seq, group) gives back seq.", "quantifier": "all sequences, all finalised in-bounds groups without touching deletions, all set iteration orders", "why_tests_cant": "round trips must hold for every group shape (insertions, deletions, zero-width edits, adjacent edits)", "anchors": ["uttut/pipeline/edit/str2str.py:inverse", "uttut/pipeline/edit/lst2lst.py:inverse", "uttut/pipeline/edit/utils.pyx:_gen_inverse_replacement_group"]}
{"id": "C03", "title": "Touching deletions break the inverse edit", "statement": "When are edits with touching deletions invertible? inverse() raises AssertionError, for every set iteration order, precisely when some run of touching deletions deletes the same text twice. Otherwise it succeeds with as many replacements, and applying it gives back the original up to the order of its elements; with two touching deletions of different texts, which of the two orders is restored depends on the iteration order of a hash set.", "quantifier": "all groups add_all accepts, all sequences they fit, all set orders; witnesses for order dependence under two set orders", "why_tests_cant": "the failure depends on hash-set iteration order and equality of the deleted texts, which example tests do not vary", "anchors": ["uttut/pipeline/edit/utils.pyx:_gen_inverse_replacement_group", "uttut/pipeline/edit/replacement.pyx:ReplacementGroup.done"]}
{"id": "C04", "title": "ReplacementGroup.add_all acceptance", "statement": "For replacements given as non-negative (start, end, new_value) triples with start <= end, add_all succeeds iff the new_values all have the same type and the distinct replacements are pairwise disjoint (one ends at or before the start of the other); otherwise it raises TypeError for mixed types, else ValueError. A bound outside 0..2^32-1 raises OverflowError.", "quantifier": "all finite lists of replacements with integer bounds and all set iteration orders", "why_tests_cant": "acceptance is a predicate over all lists of intervals including zero-width ones", "anchors": ["uttut/pipeline/edit/replacement.pyx:ReplacementGroup.add_all", "uttut/pipeline/edit/replacement.pyx:ReplacementGroup.done", "uttut/pipeline/edit/validation.pyx"]}
{"id": "C05", "title": "Replacement groups are canonical", "statement": "The finalised group does not depend on the order in which replacements were added, on repeated additions, or on the iteration order of the internal hash set, provided no two different replacements share the same (start, end); the result is sorted by start then end and contains exactly the distinct replacements. Two finalised groups are == exactly if they were given the same replacements.", "quantifier": "all permutations and repetitions of all valid replacement lists; all set iteration orders", "why_tests_cant": "permutations x set iteration orders cannot be enumerated", "anchors": ["uttut/pipeline/edit/replacement.pyx:ReplacementGroup.done", "uttut/pipeline/edit/replacement.pyx:_sort_replacements"]}
{"id": "C06", "title": "Badly ordered bounds are silently dropped by add", "statement": "ReplacementGroup.add and SpanGroup.add called with start > end raise nothing and leave the group unchanged (the ValueError is swallowed by the void cpdef), whereas constructing a Replacement or Span with start > end raises ValueError; bounds outside unsigned 32-bit raise OverflowError.", "quantifier": "all integer bounds and all prior group contents", "why_tests_cant": "the claim ranges over all groups and bounds, and the swallowed exception is invisible to assertions on return values", "anchors": ["uttut/pipeline/edit/replacement.pyx:ReplacementGroup.add", "uttut/pipeline/edit/span.pyx:SpanGroup.add", "uttut/pipeline/edit/replacement.c", "uttut/pipeline/edit/span.c"]}
{"id": "C07", "title": "Labels are edited exactly like the sequence", "statement": "propagate_by_replacement_group(labels, group, f) equals executing `labels[start:end] = f(labels[start:end], len(new_value))` from the last replacement to the first, for every f that returns output_size labels; labels outside the replaced spans are carried over unchanged and the result has the length of the edited sequence, even though the output buffer is pre-sized with wrapping 32-bit arithmetic.", "quantifier": "all label lists, all finalised in-bounds groups, all size-respecting transducers", "why_tests_cant": "transducer, labels and group are all unbounded", "anchors": ["uttut/pipeline/edit/label_propagation.pyx:propagate_by_replacement_group", "uttut/pipeline/edit/label_propagation.pyx:_compute_output_length"]}
{"id": "C08", "title": "Default label reduction is the first most common label", "statement": "The default transducer, get_most_common, and get_most_common_except_not_entity return output_size copies of the label with the maximal count, ties broken by first occurrence (the last one after removing 0, falling back to 0); on an empty list get_most_common raises IndexError and the default transducer yields 0; the Cython and Counter implementations agree on all non-negative 32-bit labels.", "quantifier": "all label lists and output sizes", "why_tests_cant": "multiplicity patterns and ties over arbitrary label lists", "anchors": ["uttut/pipeline/edit/label_propagation.pyx:_get_most_common_label", "uttut/pipeline/edit/label_propagation.pyx:_count_and_get_most_common", "uttut/pipeline/ops/label_transducer.py"]}
{"id": "C09", "title": "Negative labels: silent zero when reducing, OverflowError when expanding", "statement": "reduce_by_span_group with the default transducer turns any span whose labels contain an integer outside unsigned 32-bit into label 0 without raising, and expand_by_span_group raises OverflowError for such a label; therefore tokenizer label round trips hold only for labels in [0, 2^32).", "quantifier": "all label lists containing an out-of-range label", "why_tests_cant": "needs every position and every label value; swallowed exceptions do not surface in tests", "anchors": ["uttut/pipeline/edit/label_propagation.pyx:_count_and_get_most_common", "uttut/pipeline/edit/label_propagation.pyx:expand_by_span_group"]}
{"id": "C10", "title": "SpanGroup acceptance", "statement": "SpanGroup.add_all(spans) with well-formed spans succeeds iff the spans, stably sorted by end, start at 0 and tile an initial segment of the integers without gap or overlap; consequently accepted groups cover [0, end_of_last) exactly, but acceptance depends on the order in which zero-width spans were added. A tuple that is no pair raises ValueError. Accepted groups without empty spans are == exactly if they have the same spans; with empty spans groups that split differently can be ==.", "quantifier": "all finite lists of spans", "why_tests_cant": "the acceptance set is infinite and involves sort stability on equal ends", "anchors": ["uttut/pipeline/edit/span.pyx:SpanGroup.done", "uttut/pipeline/edit/span.pyx:SpanGroup._validate_contiguousness"]}
{"id": "C11", "title": "Span groups split and join strings losslessly", "statement": "For every accepted non-empty span group of total length len(s): lst2str.apply(str2lst.apply(s, g), g) == s and the i-th token has the length of the i-th span; str2lst.apply raises ValueError when the length differs and IndexError for an empty group.", "quantifier": "all strings and span groups", "why_tests_cant": "unbounded strings and partitions", "anchors": ["uttut/pipeline/edit/str2lst.py:apply", "uttut/pipeline/edit/lst2str.py:apply"]}
{"id": "C12", "title": "gen_span_group and gen_replacement_group reconstruct tokenisations", "statement": "gen_span_group(s, tokens) succeeds iff ''.join(tokens) == s, and then its spans are the cumulative token boundaries. gen_replacement_group(s, tokens) succeeds iff tokens occur in order without overlap in s, and then applying it to s yields ''.join(tokens).", "quantifier": "all strings and token lists, including repeated and empty tokens, all set iteration orders", "why_tests_cant": "greedy str.find alignment may mis-locate repeated tokens; only a proof covers all overlaps", "anchors": ["uttut/pipeline/edit/str2lst.py:gen_span_group", "uttut/pipeline/edit/str2lst.py:gen_replacement_group"]}
{"id": "C13", "title": "Reducing after expanding is the identity on labels", "statement": "For every accepted span group with non-empty spans and every label list of matching length with labels in [0, 2^32): reduce_by_span_group(expand_by_span_group(labels, g), g) == labels, with expand giving every character its token's label. Labels of another length are refused: both functions raise ValueError, except that reducing labels with an empty group raises IndexError.", "quantifier": "all span groups without zero-width spans and all in-range label lists", "why_tests_cant": "unbounded inputs", "anchors": ["uttut/pipeline/edit/label_propagation.pyx:reduce_by_span_group", "uttut/pipeline/edit/label_propagation.pyx:expand_by_span_group"]}
{"id": "C14", "title": "Every operator keeps labels aligned with its output", "statement": "For every built-in operator and input on which transform succeeds, the returned aligner accepts exactly label lists of the input's length, and transform(labels) succeeds and has the length of the output sequence; inverse_transform of any label list of the output's length succeeds and has the length of the input (labels in [0, 2^32) for tokenizers' inverse; except when ReplaceAwithB with empty b deletes the same text twice in a run of touching matches, and when SpanSubwords with maxlen_per_token >= 0 meets adjacent empty tokens: then inverse_transform always raises AssertionError).", "quantifier": "all operators, configurations, inputs, labels, set iteration orders", "why_tests_cant": "operators x inputs x labels", "anchors": ["uttut/pipeline/ops/base.py:LabelAligner", "uttut/pipeline/ops/pattern_recognizers/base.py", "uttut/pipeline/ops/tokenizers/base.py"]}
{"id": "C15", "title": "Wrong-length labels are rejected", "statement": "For every aligner, transform raises ValueError before anything else when len(labels) differs from the input length, and inverse_transform when len(labels) differs from the output length; otherwise exceptions of the label function come through, and labels of a wrong number computed by it are refused with ValueError. So a successful call always returns a list of the opposite length.", "quantifier": "all aligners, all label lists", "why_tests_cant": "ranges over every possible aligner implementation", "anchors": ["uttut/pipeline/ops/base.py:LabelAligner.transform", "uttut/pipeline/ops/base.py:LabelAligner.inverse_transform"]}
{"id": "C16", "title": "Lowercase", "statement": "Lowercase output is the input with each ASCII capital replaced by its lowercase letter and every other character unchanged (same length, idempotent); labels pass through unchanged in both directions.", "quantifier": "all strings and labels", "why_tests_cant": "the regex search loop runs over arbitrary strings", "anchors": ["uttut/pipeline/ops/lowercase.py:Lowercase"]}
{"id": "C17", "title": "Whitespace around CJK characters and punctuation", "statement": "AddWhitespaceAroundCJK / AddWhitespaceAroundPunctuation output each matching character c as ' c ' and leave all other characters alone; forward labels are 0,l,0 for a match; inverse_transform(transform(labels)) == labels for every label list.", "quantifier": "all strings, labels, punctuation predicates", "why_tests_cant": "per-character edit groups of arbitrary size", "anchors": ["uttut/pipeline/ops/add_whitespace_around_character.py", "uttut/pipeline/ops/add_whitespace_around_cjk.py", "uttut/pipeline/ops/add_whitespace_around_punctuation.py"]}
{"id": "C18", "title": "Number recognisers replace exactly the maximal numeric runs", "statement": "Splitting the input into maximal runs of digit-or-dot characters, IntToken/IntTokenWithSpace/NumTokenWithSpace replace exactly the runs consisting only of digits and FloatToken/FloatTokenWithSpace exactly the runs of the form digits.digits, by their token; everything else is unchanged.", "quantifier": "all strings over any alphabet", "why_tests_cant": "backtracking and lookaround regexes on arbitrary strings", "anchors": ["uttut/pipeline/ops/pattern_recognizers/int_token.py", "uttut/pipeline/ops/pattern_recognizers/float_token.py", "uttut/pipeline/ops/pattern_recognizers/int_token_with_space.py", "uttut/pipeline/ops/pattern_recognizers/float_token_with_space.py", "uttut/pipeline/ops/pattern_recognizers/num_token_with_space.py", "uttut/pipeline/ops/pattern_recognizers/base.py"]}
{"id": "C19", "title": "Number recognisers: labels", "statement": "Forward labels of a recognised number are the most common label of its characters (surrounded by 0 for the with-space variants), all other labels are unchanged; if each recognised number carries a uniform label then inverse_transform(transform(labels)) == labels.", "quantifier": "all strings and label lists", "why_tests_cant": "label and run structure unbounded", "anchors": ["uttut/pipeline/ops/pattern_recognizers/int_token.py:IntTokenAligner", "uttut/pipeline/ops/pattern_recognizers/int_token_with_space.py:IntTokenWithSpaceAligner", "uttut/pipeline/ops/pattern_recognizers/float_token_with_space.py", "uttut/pipeline/ops/pattern_recognizers/num_token_with_space.py"]}
{"id": "C20", "title": "Number recognisers are idempotent and independent", "statement": "Applying a number recogniser twice equals applying it once, IntToken never alters a decimal number, and IntToken and FloatToken commute.", "quantifier": "all strings", "why_tests_cant": "interaction of two rewriting passes on arbitrary strings", "anchors": ["uttut/pipeline/ops/pattern_recognizers/int_token.py", "uttut/pipeline/ops/pattern_recognizers/float_token.py"]}
{"id": "C21", "title": "MergeWhiteSpaceCharacters", "statement": "Every maximal run of whitespace is replaced by a single space and nothing else changes; the output contains no two adjacent whitespace characters; the operator is idempotent; str.split() of the output equals str.split() of the input.", "quantifier": "all strings", "why_tests_cant": "unbounded runs", "anchors": ["uttut/pipeline/ops/pattern_recognizers/merge_whitespace_characters.py"]}
{"id": "C22", "title": "StripWhiteSpaceCharacters is str.strip", "statement": "The output equals the input without leading and trailing whitespace (idempotent, interior kept); forward labels are those of the kept characters, inverse labels give 0 to stripped characters and the given labels to kept ones.", "quantifier": "all strings and labels", "why_tests_cant": "alternation of anchored regexes on arbitrary strings", "anchors": ["uttut/pipeline/ops/pattern_recognizers/strip_whitespace_characters.py"]}
{"id": "C23", "title": "StopwordsToWhitespace", "statement": "Scanning left to right, each leftmost stopword (two-character stopwords preferred over their one-character prefixes) is replaced by one space with label 0; the output contains no stopword; the search loop always terminates; inverse labels put 0 on stopwords and keep all others.", "quantifier": "all strings and labels", "why_tests_cant": "unbounded strings; termination", "anchors": ["uttut/pipeline/ops/pattern_recognizers/stopwords_to_whitespace.py", "uttut/pipeline/ops/pattern_recognizers/stopwords.txt"]}
{"id": "C24", "title": "Pattern recogniser termination", "statement": "The search-and-replace loop terminates whenever every match it meets is non-empty, and never terminates when a search started at some reached position yields an empty match there (e.g. ReplaceAwithB with a pattern matching the empty string): no iteration bound suffices.", "quantifier": "all strings, all regex search functions", "why_tests_cant": "non-termination cannot be observed by a test", "anchors": ["uttut/pipeline/ops/pattern_recognizers/base.py:PatternRecognizer._gen_forward_replacement_group", "uttut/pipeline/ops/pattern_recognizers/replace_a_with_b.py"]}
{"id": "C25", "title": "ReplaceAwithB replaces successive leftmost matches", "statement": "For every regex whose matches are non-empty, the output is the input with successive non-overlapping leftmost matches replaced by b, and labels map forward. If b is non-empty, or no text occurs twice in a run of touching matches, labels can be mapped back, to exactly the labels computed match by match; otherwise inverse_transform raises AssertionError.", "quantifier": "all search functions satisfying the contract of re, all strings, all b, all labels", "why_tests_cant": "quantifies over all regexes", "anchors": ["uttut/pipeline/ops/pattern_recognizers/replace_a_with_b.py", "uttut/pipeline/ops/pattern_recognizers/base.py"]}
{"id": "C26", "title": "PunctuationExceptEndpointToWhitespace", "statement": "Each punctuation character other than '.' becomes one space with label 0 and all other characters and labels are unchanged; same length; output contains no punctuation except '.'; idempotent.", "quantifier": "all strings and labels", "why_tests_cant": "unbounded strings and all Unicode punctuation", "anchors": ["uttut/pipeline/ops/punctuation_except_endpoint_to_whitespace.py"]}
{"id": "C27", "title": "StripAccentToken", "statement": "When stripping accents preserves length, the output is the accent-stripped text with labels unchanged both ways; when it does not preserve length, transform raises AssertionError (so texts with standalone combining marks or multi-character decompositions make the BERT pipes fail).", "quantifier": "all strings, all Unicode decomposition tables", "why_tests_cant": "Unicode input space", "anchors": ["uttut/pipeline/ops/strip_accent_token.py"]}
{"id": "C28", "title": "AddSosEos and AddEndToken", "statement": "On non-empty token lists AddSosEos yields [sos] + tokens + [eos], labels [0] + labels + [0], and its inverse drops first and last label; AddEndToken yields tokens + [eos] for every list; round trip of labels is the identity.", "quantifier": "all token lists, tokens, labels, set iteration orders", "why_tests_cant": "insertion edits at both ends share hash keys only for the empty list; unbounded lists", "anchors": ["uttut/pipeline/ops/add_sos_eos.py", "uttut/pipeline/ops/add_end_token.py"]}
{"id": "C29", "title": "AddSosEos on the empty list depends on set order", "statement": "For the empty token list AddSosEos may return [eos, sos] or [sos, eos] depending on the iteration order of a hash set; in every case the output is a permutation of {sos, eos}, and with equal tokens only a single token is added.", "quantifier": "the empty list, all set iteration orders, all token pairs", "why_tests_cant": "hash-set order is not controllable from tests", "anchors": ["uttut/pipeline/ops/add_sos_eos.py", "uttut/pipeline/edit/replacement.pyx:ReplacementGroup.done"]}
{"id": "C30", "title": "Pad", "statement": "For 0 <= maxlen < 2^32 (for larger maxlen see C91), Pad output has exactly maxlen tokens: the first min(n, maxlen) input tokens followed by pad tokens; labels likewise padded with 0; the inverse returns exactly n labels, restoring the kept prefix and 0 for truncated positions; negative maxlen raises OverflowError.", "quantifier": "all token lists, maxlen, labels", "why_tests_cant": "three-way case analysis over all lengths", "anchors": ["uttut/pipeline/ops/pad.py"]}
{"id": "C31", "title": "Token2Index", "statement": "The constructor accepts token2index iff its values are exactly {0..n-1} without repetition, n > 0, and unk_token is a key (ValueError / KeyError otherwise); the output has the input's length, every index is in [0, n), known tokens map to their own index and unknown tokens to unk's; labels pass through.", "quantifier": "all mappings, token lists, labels", "why_tests_cant": "all mappings", "anchors": ["uttut/pipeline/ops/token_to_index.py"]}
{"id": "C32", "title": "Token2IndexwithHash and consistent_hash", "statement": "The hash equals an independent arithmetic definition of MurmurHash3_x86_32 on every byte string and seed. Known tokens map to their index; unknown tokens map to MurmurHash3_x86_32(utf8(token)) mod n; all outputs are in [0, n); equal tokens always get equal indices; the hash finaliser and per-block mixing are bijective on 32-bit words.", "quantifier": "all mappings, tokens, byte strings", "why_tests_cant": "hash input space", "anchors": ["uttut/pipeline/ops/token_to_index_with_hash.py", "uttut/pipeline/ops/utils/consistent_hash.pyx", "uttut/pipeline/ops/utils/MurmurHash3.cpp"]}
{"id": "C33", "title": "span_subwords is greedy longest-match WordPiece", "statement": "For every word and vocab: the result is [unk] if the word is longer than the limit or no greedy segmentation exists; otherwise pieces (with '##' removed from all but the first) concatenate to the word, each piece is in the vocab, and each piece is the longest vocab match at its position.", "quantifier": "all words, vocabularies, limits", "why_tests_cant": "all vocabularies", "anchors": ["uttut/pipeline/ops/span_subwords.py:span_subwords"]}
{"id": "C34", "title": "SpanSubwords operator", "statement": "The output is the concatenation of span_subwords over tokens; each subword gets its token's label; on non-empty tokens inverse_transform(transform(labels)) == labels; on adjacent empty-string tokens the inverse raises AssertionError.", "quantifier": "all token lists, vocabularies, labels", "why_tests_cant": "unbounded", "anchors": ["uttut/pipeline/ops/span_subwords.py:SpanSubwords"]}
{"id": "C35", "title": "PureNum2Token", "statement": "Exactly the non-empty tokens consisting only of digits are replaced by the number token, all other tokens are unchanged; length and labels are preserved.", "quantifier": "all token lists", "why_tests_cant": "findall on arbitrary tokens", "anchors": ["uttut/pipeline/ops/pure_num_to_token.py"]}
{"id": "C36", "title": "Trie prefix matching", "statement": "After inserting a list of distinct non-empty words, membership is exact, match_prefix returns the longest (or with shortest=True the shortest) inserted word that is a prefix of the text, None iff there is none; inserting a duplicate non-empty word raises AttributeError; empty words never match.", "quantifier": "all word lists in every insertion order and all texts", "why_tests_cant": "all insertion histories", "anchors": ["uttut/pipeline/ops/utils/trie.py"]}
{"id": "C37", "title": "CustomWordTokenizer", "statement": "The tokens concatenate to the input; each token is either a user word that is the longest (shortest) user word at its position or a single character where no user word starts; label transform/inverse have matching lengths and transform(inverse(y)) == y.", "quantifier": "all word lists, strings, labels", "why_tests_cant": "segmentation over all dictionaries", "anchors": ["uttut/pipeline/ops/tokenizers/custom_word_tokenizer.py"]}
{"id": "C38", "title": "AddWhitespaceAroundWordnZhChar", "statement": "The output inserts one space on each side of each greedily matched user word and each unmatched CJK character and leaves other characters alone; deleting nothing: removing the inserted spaces gives back the input; inverse_transform(transform(labels)) == labels.", "quantifier": "all word lists, strings, labels", "why_tests_cant": "segmentation over all dictionaries", "anchors": ["uttut/pipeline/ops/add_whitespace_around_word_n_zhchar.py"]}
{"id": "C39", "title": "Whitespace tokeniser", "statement": "WhiteSpaceTokenizer returns the maximal whitespace-free runs in order: tokens are non-empty, whitespace-free and their concatenation is the input with whitespace removed; transform never raises.", "quantifier": "all strings", "why_tests_cant": "alignment by str.find must succeed for every string", "anchors": ["uttut/pipeline/ops/tokenizers/whitespace_tokenizer.py", "uttut/pipeline/ops/tokenizers/base.py"]}
{"id": "C40", "title": "English and Chinese tokenisers", "statement": "EngTokenizer / ZhCharTokenizer tokens are non-empty, whitespace-free, concatenate to the input minus whitespace; every punctuation (and CJK, for Zh) character is a token of its own; no token boundary appears except at whitespace, punctuation (or CJK); transform never raises.", "quantifier": "all strings and punctuation predicates", "why_tests_cant": "alignment and splitting on arbitrary Unicode", "anchors": ["uttut/pipeline/ops/tokenizers/eng_tokenizer.py", "uttut/pipeline/ops/tokenizers/zh_char_tokenizer.py"]}
{"id": "C41", "title": "CharTokenizer", "statement": "CharTokenizer returns the list of single characters (including whitespace, contrary to its docstring) and labels pass through unchanged both ways for labels in [0, 2^32).", "quantifier": "all strings and labels", "why_tests_cant": "unbounded", "anchors": ["uttut/pipeline/ops/tokenizers/char_tokenizer.py"]}
{"id": "C42", "title": "Tokeniser labels", "statement": "For every tokenizer: inverse labels give every character of a token the token's label and 0 to dropped characters; transform(inverse(y)) == y for all in-range y; forward labels are the most common label over each token's own characters.", "quantifier": "all tokenizers, strings, labels", "why_tests_cant": "unbounded", "anchors": ["uttut/pipeline/ops/tokenizers/base.py:TokenizerAligner"]}
{"id": "C43", "title": "Datum construction", "statement": "Datum(utterance, intents, entities) succeeds iff every entity's value equals utterance[start:end] and, in start order, no entity ends after the next one starts (EntityPositionError takes precedence over EntityOverlapping); a constructed datum has entities sorted by start, intents sorted by hash, containing exactly the given ones.", "quantifier": "all utterances and entity/intent lists", "why_tests_cant": "all entity layouts", "anchors": ["uttut/elements.pyx:Datum", "uttut/utils.py"]}
{"id": "C44", "title": "Well-formed entities of a datum are disjoint", "statement": "The index ranges [start, end) of any two entities of a constructed datum are disjoint. If bounds satisfy 0 <= start <= end <= len(utterance), the entities also occupy disjoint characters; without that bound the constructor accepts data whose (negative) bounds select colliding characters, or whose end exceeds the utterance.", "quantifier": "all data", "why_tests_cant": "pairwise property over all layouts", "anchors": ["uttut/elements.pyx:Datum", "uttut/utils.py:overlap"]}
{"id": "C45", "title": "unpack_datum labels", "statement": "For a datum with in-bounds entities the entity labels have the utterance's length and position i carries the label of the unique entity covering i, else 0; an entity reaching beyond the end of the utterance is accepted by Datum yet makes unpack_datum raise IndexError.", "quantifier": "all data", "why_tests_cant": "all positions of all data", "anchors": ["uttut/pipeline/utils.py:unpack_datum"]}
{"id": "C46", "title": "pack/unpack round trip", "statement": "For every non-empty utterance (shorter than 2^31) and label list of equal length with labels and intents in the range of C int, pack_to_datum succeeds and unpack_datum of it returns the utterance, the sorted distinct intents, and the same entity labels; the entities are exactly the maximal runs of equal non-zero labels. Empty utterance raises IndexError, length mismatch ValueError, other labels OverflowError.", "quantifier": "all utterances, intents, labels", "why_tests_cant": "run structure of arbitrary label lists", "anchors": ["uttut/pipeline/utils.py:pack_to_datum"]}
{"id": "C47", "title": "Entity dictionary round trip and equality", "statement": "Entity.from_dict(entity.to_dict(), utterance) == entity whenever entity.value == utterance[start:end], whatever the set order; Entity and Datum equality are equivalence relations; datum equality ignores the order and multiplicity of intents.", "quantifier": "all entities, utterances, data", "why_tests_cant": "equivalence laws quantify over all triples", "anchors": ["uttut/elements.pyx:Entity", "uttut/elements.pyx:Datum.__eq__"]}
{"id": "C48", "title": "get_kth_combination enumerates the cartesian product", "statement": "For non-empty candidate lists and 0 <= k < product of lengths (k below 2^31, else OverflowError), get_kth_combination picks one candidate of each list, different k give different index tuples and every index tuple is hit by exactly one k (k and k + product give the same combination).", "quantifier": "all lists of candidate lists and all k", "why_tests_cant": "mixed-radix bijection over all radices", "anchors": ["uttut/toolkits/get_kth_combination.pyx"]}
{"id": "C49", "title": "partition_by_entities loses nothing", "statement": "For a datum with in-bounds entities, choosing for every entity its original value, the parts concatenate to the utterance; labels and parts have the same length; candidates of an entity are its sorted replacements (plus the value when include_orig) or its value when it has none.", "quantifier": "all data", "why_tests_cant": "all layouts", "anchors": ["uttut/toolkits/partition_by_entities.pyx"]}
{"id": "C50", "title": "expand_by_entities yields exactly the valid substitutions", "statement": "For a datum with in-bounds entities and no sampling, at most 2^31 combinations and texts shorter than 2^31, expand_by_entities succeeds, returns product-of-candidate-counts data, each a valid Datum with the same intents and the same entity labels in order, whose utterance is the original with each entity value replaced by a chosen candidate; every choice of candidates occurs; with include_orig the original utterance is among the results; a datum without entities is returned as is. More combinations, or a sampling method that returns an index outside the range of C int, raise OverflowError. Without a sampling method the number of results is the product over the entities of n_replacements() (one less for entities with replacements if the original is not included).", "quantifier": "all data with in-bounds entities", "why_tests_cant": "all combinations of replacements", "anchors": ["uttut/expand_by_entities.pyx"]}
{"id": "C51", "title": "Entity overlapping ratio", "statement": "For data over the same non-empty utterance: ratio is symmetric, is 1 for equal labellings (and only then when the penalty rate is positive), lies in [1 - max(1, rate), 1] for non-negative rate; the character labelling used equals unpack_datum's on in-bounds data; different utterances raise DifferentUtterance, empty utterance ZeroDivisionError.", "quantifier": "all data pairs and rates", "why_tests_cant": "real-valued score over all pairs", "anchors": ["uttut/entity_overlapping_ratio.py"]}
{"id": "C52", "title": "get_unique_entities", "statement": "The returned list has no repetition and contains a label iff some entity of some datum carries it.", "quantifier": "all lists of data", "why_tests_cant": "all data sets", "anchors": ["uttut/get_unique_entities.py"]}
{"id": "C53", "title": "OrdinalLabel mappings are bijections", "statement": "The constructor succeeds iff intent indices are exactly 0..n-1 and entity indices together with not_entity_index are exactly 0..m; then index2intent/index2entity invert the mappings and raise KeyError for every other index, in particular for not_entity_index. An entity named __NOT_ENTITY__ is not checked: it may have any index, and of names with one index the first is found.", "quantifier": "all mappings", "why_tests_cant": "all mappings", "anchors": ["uttut/transformers/ordinal_label.py:OrdinalLabel.__init__", "uttut/transformers/ordinal_label.py:OrdinalLabel.is_valid_mapping"]}
{"id": "C54", "title": "OrdinalLabel.from_raw_dictionary", "statement": "With 0 <= not_entity_index <= number of distinct entity names and no entity named __NOT_ENTITY__, from_raw_dictionary succeeds and covers exactly the names in the data, numbering them in first-occurrence order and skipping not_entity_index; outside that range it raises ValueError. With an entity named __NOT_ENTITY__ it raises ValueError unless that name is the last to occur for the first time and 0 <= not_entity_index < number of distinct entity names.", "quantifier": "all raw dictionaries and not_entity_index", "why_tests_cant": "all raw data", "anchors": ["uttut/transformers/ordinal_label.py:OrdinalLabel.from_raw_dictionary"]}
{"id": "C55", "title": "OrdinalLabel humanize/machanize round trip", "statement": "For every datum whose labels are known, machanize(humanize(datum)) == datum, and for every raw dictionary accepted by machanize, humanize(machanize(raw)) has the same utterance, the same multiset of intent names and the same entities.", "quantifier": "all data and raw dictionaries", "why_tests_cant": "all data", "anchors": ["uttut/transformers/ordinal_label.py:OrdinalLabel.humanize", "uttut/transformers/ordinal_label.py:OrdinalLabel.machanize"]}
{"id": "C56", "title": "OrdinalLabel serialization round trip", "statement": "deserialize(serialize(t)) equals t (same mappings in the same order, same not_entity_index) for every constructed transformer, whatever characters its names contain. A text loads exactly if it is JSON for an object with intent2index and entity2index, objects whose values equal ints (true and false count as 1 and 0), and a not_entity_index, which the constructor accepts; the result has these mappings in this order. Otherwise: ValueError for a text that is not JSON and for mappings that are no numberings, KeyError for missing keys, AttributeError if intent2index is not an object, TypeError if entity2index is not one or if the values cannot be sorted.", "quantifier": "all transformers, all texts (numbers without fractions and exponents)", "why_tests_cant": "all mappings", "anchors": ["uttut/transformers/ordinal_label.py:OrdinalLabel.serialize", "uttut/transformers/ordinal_label.py:OrdinalLabel.deserialize"]}
{"id": "C57", "title": "Pipe type discipline", "statement": "In every program that builds, extends, adds, copies, slices (step 1) and loads pipes, failed calls included, consecutive steps of every pipe have matching types; so on an input of the pipe's input type no step is ever given a value of a wrong type, and the result has the pipe's output type. Slices with another step can break this.", "quantifier": "all call histories", "why_tests_cant": "histories are unbounded", "anchors": ["uttut/pipeline/pipe.py:Pipe.add_op", "uttut/pipeline/pipe.py:Pipe.__iadd__"]}
{"id": "C58", "title": "Pipe transform is operator composition", "statement": "transform_sequence returns the composition of the steps, records input and every step's output in order in the intermediate (length steps+1), and running p + q equals running p then q with aligners concatenated.", "quantifier": "all pipes, inputs, operators", "why_tests_cant": "arbitrary operators and pipe lengths", "anchors": ["uttut/pipeline/pipe.py:Pipe.transform_sequence", "uttut/pipeline/intermediate.py"]}
{"id": "C59", "title": "Pipe labels stay aligned end to end", "statement": "If every step's aligner is aligned (C14), LabelAlignerSequence.transform maps label lists of the input's length to the output's length and inverse_transform maps back to the input's length; round trips compose; Pipe.transform(datum) returns entity labels of the output's length for data with in-bounds entities.", "quantifier": "all pipes over aligned operators, all data", "why_tests_cant": "unbounded composition", "anchors": ["uttut/pipeline/pipe.py:LabelAlignerSequence", "uttut/pipeline/pipe.py:Pipe.transform"]}
{"id": "C60", "title": "Checkpoints name the right intermediate", "statement": "In a pipe built by any history of add_op calls, get_from_checkpoint(name) returns the output of exactly the step added with that checkpoint name; unknown names raise KeyError.", "quantifier": "all add_op histories and inputs", "why_tests_cant": "histories", "anchors": ["uttut/pipeline/pipe.py:Pipe.add_op", "uttut/pipeline/intermediate.py:Intermediate.get_from_checkpoint"]}
{"id": "C61", "title": "Failed add: TypeError is atomic, KeyError is not", "statement": "add_op raising TypeError leaves the pipe unchanged; add_op raising KeyError for a duplicate checkpoint leaves the step appended (checkpoints unchanged).", "quantifier": "all pipes, operators, checkpoint names", "why_tests_cant": "all states", "anchors": ["uttut/pipeline/pipe.py:Pipe.add_op"]}
{"id": "C62", "title": "Concatenated pipes misplace checkpoints", "statement": "p + q raises IndexError if one of them is empty, TypeError if the types do not fit, KeyError if they share a checkpoint name. After p += q (or p + q) every checkpoint of p still resolves as before, but every checkpoint of q is shifted by len(p)+len(q) instead of len(p), so get_from_checkpoint raises IndexError for each of them; once the pipe has been extended far enough they resolve to the output of a later, wrong step.", "quantifier": "all pipes p, q and inputs", "why_tests_cant": "holds for every pair of pipes; existing tests only check counts", "anchors": ["uttut/pipeline/pipe.py:Pipe.__iadd__"]}
{"id": "C63", "title": "Pipe slicing", "statement": "p[a:b] with 0 <= a contains steps a..b; its checkpoints are those after a shifted by a, including checkpoints beyond b, which resolve to IndexError, while those within the slice resolve to the output of the same step; p[:b] raises TypeError as soon as p has a checkpoint; p[i] is the i-th step, counted from the back for negative i, and raises IndexError outside -len..len-1. With any bounds and step the slice holds exactly the steps at the selected positions in order (in reverse order for a negative step); a step of 0 raises ValueError; whether the selected steps fit together is not checked.", "quantifier": "all pipes and slice bounds", "why_tests_cant": "all slices", "anchors": ["uttut/pipeline/pipe.py:Pipe.__getitem__"]}
{"id": "C64", "title": "Intermediates survive later pipe growth", "statement": "A checkpoint value that can be read from an intermediate can be read unchanged at every later point of the program (the checkpoint dict is shared with the pipe), while a name that was unknown to the intermediate never becomes readable (if all texts loaded have positive checkpoints, as written by serialize): it raises KeyError or, once the pipe has a checkpoint of that name, IndexError.", "quantifier": "all programs over pipes", "why_tests_cant": "aliasing across unbounded histories", "anchors": ["uttut/pipeline/pipe.py:Pipe.transform_sequence", "uttut/pipeline/intermediate.py"]}
{"id": "C65", "title": "Operator configs capture", "statement": "After a successful construction with any mix of positional and keyword arguments, configs maps every constructor parameter to the value it was bound to, so rebuilding from configs binds identical arguments and yields an equal operator.", "quantifier": "all constructor signatures of plain parameters with or without defaults (C97: *args, keyword-only parameters, **kwargs) and all call shapes", "why_tests_cant": "all signatures x call shapes", "anchors": ["uttut/pipeline/ops/base.py:Serializable.__init_subclass__"]}
{"id": "C66", "title": "Operator and pipe serialization round trip", "statement": "For every operator whose class is registered and whose arguments are JSON values, Operator.deserialize(op.serialize()) == op with the same behaviour; for every type-consistent pipe of such operators Pipe.deserialize(p.serialize()) == p with the same steps and checkpoints; steps stored in the old dict format, in any mixture, are accepted equivalently; unknown operator names raise KeyError; steps that are neither str nor dict raise TypeError. Tuple arguments come back as lists and then compare unequal.", "quantifier": "all pipes over registered operators", "why_tests_cant": "all pipes", "anchors": ["uttut/pipeline/pipe.py:Pipe.serialize", "uttut/pipeline/pipe.py:Pipe.deserialize", "uttut/pipeline/ops/base.py:Serializable"]}
{"id": "C67", "title": "Operator factory", "statement": "After any history of register calls, lookup returns the first class registered under the name; re-registering raises KeyError and changes nothing; unregistered names raise KeyError. Two registries compare equal exactly if every lookup gives the same class or exception in both, in whatever order the classes were registered; a registry equals no other object.", "quantifier": "all registration histories", "why_tests_cant": "histories", "anchors": ["uttut/pipeline/ops/factory.py"]}
{"id": "C68", "title": "BERT pipes", "statement": "basic_pipe and full_pipe raise (AssertionError) exactly on texts whose length accent stripping changes; word_piece_pipe never raises. Otherwise labels are aligned with the output in both directions, basic_pipe's tokens are non-empty and whitespace-free, and, where accents are stripped character by character, every punctuation or CJK character of the text forms its own token, a token's label is the most frequent label of its characters and going back its characters get the token's label. full_pipe and word_piece_pipe divide each token into subwords that carry its label. The stored vocabularies of the subword steps number the entries from 0 in their order.", "quantifier": "all texts and labels", "why_tests_cant": "7-step composition on arbitrary text", "anchors": ["uttut/pipeline/bert/basic.py", "uttut/pipeline/bert/full.py", "uttut/pipeline/bert/word_piece.py"]}
{"id": "C69", "title": "Pipe objects are independent", "statement": "Copies, slices, sums and deserialized pipes share no state with the pipes they were made from: a program part that never calls add, add_op or += on a pipe leaves its steps and checkpoints unchanged, and no call ever removes or reorders steps or checkpoints of a pipe.", "quantifier": "all programs over pipes", "why_tests_cant": "Aliasing bugs only show for particular interleavings of calls on several pipe objects.", "anchors": ["uttut/pipeline/pipe.py:82-118", "uttut/pipeline/intermediate.py:13-15"]}
{"id": "C70", "title": "The pipe of the README", "statement": "The pipe the README builds (number tokens, white space clean-up, English tokenizer, start and end token, padding to maxlen, indices), with any maxlen below 2^32 and any valid vocabulary, turns every text into exactly maxlen indices of the vocabulary: each is the index of the padded or cut word at its position, or of <unk>. The checkpoint holds the words with the start and end token. Every word carries the most frequent label of its characters (numbers the label of the number), start, end and padding carry 0, and going back every character gets its word's label. A vocabulary entry of several characters that contains punctuation, such as _int_ and _float_, is never produced; the end token is kept exactly if the words and the two tokens fit in maxlen.", "quantifier": "all texts and labels, all maxlen, all valid vocabularies", "why_tests_cant": "8-step composition on arbitrary text; the README's own example shows an output that the code does not produce", "anchors": ["README.md:37-60", "uttut/pipeline/ops/int_token_with_space.py", "uttut/pipeline/ops/float_token_with_space.py", "uttut/pipeline/ops/english_tokenizer.py", "uttut/pipeline/ops/add_sos_eos.py", "uttut/pipeline/ops/pad.py", "uttut/pipeline/ops/token_to_index.py"]}
{"id": "C71", "title": "Pipe summary", "statement": "summary() never raises; for a pipe built by any add_op calls (failed ones included) it prints every operator once in step order, each change of sequence type between them, and directly under an operator the checkpoint its call gave it, and only there; the totals are the numbers of operators and checkpoints. For p + q it shows none of q's checkpoints, although the total counts them. str(op) is the class name followed by the named arguments, dicts shown by their first two entries, other values by reprlib.repr.", "quantifier": "all add_op histories, all pairs of pipes", "why_tests_cant": "Histories are unbounded; the checkpoint table is inverted and collisions would only show for particular histories.", "anchors": ["uttut/pipeline/pipe.py:145-176", "uttut/pipeline/ops/base.py:141-157"]}
{"id": "C72", "title": "Results do not depend on the hash seed", "statement": "Every operator class called with the same arguments, every add, and every Pipe.deserialize of the same text behave alike under any two hash seeds (iteration orders of sets): the same exception, or operators and pipes with the same configuration that give the same output or exception, the same intermediates and the same answer to every list of labels in both directions, for every input. The only exception is AddSosEos on the empty list. The seed does decide the order of touching insertions inside an inverted edit; no label shows it.", "quantifier": "all operator classes, arguments, pipes, inputs, labels, and pairs of set iteration orders", "why_tests_cant": "One test process has one hash seed; divergence would need a second process with another seed and an input on which the order of equal-sorting replacements matters.", "anchors": ["uttut/pipeline/edit/replacement.pyx:98-111", "uttut/pipeline/edit/utils.pyx:32-68", "uttut/pipeline/ops/base.py:24-43", "uttut/pipeline/pipe.py:27-77", "uttut/pipeline/pipe.py:178-253"]}
{"id": "C73", "title": "Which labels survive the way through an operator and back", "statement": "For every operator the labels of the input that come back unchanged from transform followed by inverse_transform are known exactly: all labels for the operators that only add, lower, index or rename; one label per number, per run of white space or per match where text is replaced; 0 on text that is removed; one label per token and 0 between tokens for tokenizers; 0 beyond maxlen for Pad. For every operator carrying labels there and back a second time changes nothing more, in either direction. Labels that survive each step of a pipe survive the pipe; but a pipe as a whole need not settle after one way there and back.", "quantifier": "all built-in operators with all arguments, all inputs, all lists of labels, all pipes", "why_tests_cant": "Exactness and stability are about all label lists; that a pipe of two stable steps is unstable shows only for particular lengths and majorities.", "anchors": ["uttut/pipeline/ops/base.py:164-243", "uttut/pipeline/ops/label_transducer.py", "uttut/pipeline/pipe.py:256-290"]}
{"id": "C74", "title": "Making operators by name and arguments", "statement": "Looking an operator up by its name and calling it with any mix of positional, keyword and default arguments gives the operator that name documents, working on exactly the values bound to its parameters, with the documented defaults (<sos>, <eos>, <pad>, <unk>, 200, _num_, longest match); calls Python can not bind raise TypeError, unknown names KeyError, and bad values the documented errors (ValueError for no end token, no user words or gaps in the index, KeyError for a missing unknown token, re.error for a bad pattern). Operators without parameters refuse every argument. All names but AddEndToken are known after importing the package.", "quantifier": "all operator names, all argument lists and keyword dictionaries, all inputs", "why_tests_cant": "The ways to pass arguments and the inputs are unbounded; swapped or dropped arguments show only for particular call shapes.", "anchors": ["uttut/pipeline/ops/factory.py", "uttut/pipeline/ops/base.py:16-60", "uttut/pipeline/ops/tokens.py", "uttut/pipeline/ops/__init__.py"]}
{"id": "C75", "title": "Which data come back", "statement": "pack_to_datum(utterance, intents, labels) equals a given datum exactly if the labels are those unpack_datum gives and the entities are traceable: none empty, none labelled 0, none with replacements, and no two that touch with the same label. So unpacking and packing, or a pipe of built-in operators followed by realigning the output labels and packing, gives the datum back exactly if its entities are traceable and every character gets its own label back. With WhiteSpaceTokenizer the packed datum has exactly one entity per token labelled other than 0, with that token as its text; with WhiteSpaceTokenizer, EngTokenizer and ZhCharTokenizer no recovered entity contains white space, so a datum with an entity of several words never comes back, whatever labels are predicted for the tokens.", "quantifier": "all proper data (text of 1 to 2^31-1 characters, entities within it, labels C ints), all labels, all pipes of built-in operators", "why_tests_cant": "Whether a datum comes back depends on the positions and labels of all its entities and on each operator's treatment of labels; tests show single sentences.", "anchors": ["uttut/elements.pyx:83-149", "uttut/pipeline/utils.py:1-69", "uttut/pipeline/ops/tokenizers/whitespace_tokenizer.py", "uttut/pipeline/ops/tokenizers/eng_tokenizer.py", "uttut/pipeline/ops/tokenizers/zh_char_tokenizer.py", "uttut/pipeline/pipe.py:74-143"]}
{"id": "C76", "title": "Steps that can stand for each other", "statement": "In any pipe, a list of steps may be replaced by an interchangeable one: the output, the exceptions and the labels in both directions stay the same. Interchangeable are: merging or stripping white space before WhiteSpaceTokenizer, EngTokenizer or ZhCharTokenizer, and not doing so; AddWhitespaceAroundPunctuation then WhiteSpaceTokenizer, and EngTokenizer; AddWhitespaceAroundCJK then EngTokenizer, and ZhCharTokenizer; AddWhitespaceAroundPunctuation before EngTokenizer or ZhCharTokenizer, or AddWhitespaceAroundCJK before ZhCharTokenizer, and not doing so; merging and stripping in either order; white space around punctuation and around ideographs in either order; Lowercase before or after any of the white space operators; and Lowercase, merging or stripping twice or once. Lowercase before one of the three tokenizers lowers the letters of the tokens and changes no label.", "quantifier": "all pipes, texts and label lists (assuming white space and ASCII letters are not of category P)", "why_tests_cant": "equality of two compositions on all texts, in all pipes and for all labels", "anchors": ["uttut/pipeline/ops/tokenizers", "uttut/pipeline/ops/add_whitespace_around_punctuation.py", "uttut/pipeline/ops/add_whitespace_around_cjk.py", "uttut/pipeline/ops/pattern_recognizers/merge_whitespace_characters.py", "uttut/pipeline/ops/pattern_recognizers/strip_whitespace_characters.py", "uttut/pipeline/ops/lowercase.py"]}
{"id": "C77", "title": "Group objects over any sequence of calls", "statement": "For any sequence of add and done calls on a new ReplacementGroup or SpanGroup, whatever exceptions are caught in between: the contents are exactly what was successfully added (replacement groups drop repetitions on done, span groups keep them), every call raises exactly the specified exception (add: OverflowError for a bound outside 0..2^32-1 and nothing else, a call with start > end is silently ignored; done: TypeError for values of different types, ValueError for replacements that overlap or spans that are not contiguous from 0, nothing with skip_sort), and a group can be read exactly when some done has succeeded; before that every reading raises. After a successful done without skip_sort and nothing added since, the contents are sorted and valid. Adding after done keeps the group readable but unsorted and unchecked; a done that raises leaves a group that was finalised before readable; a replacement group in which two entries overlap can never be finalised again.", "quantifier": "all sequences of calls with all arguments, all iteration orders of sets", "why_tests_cant": "Tests call add and done in one order; the state after any history of calls, including failed ones, is an invariant over all of them.", "anchors": ["uttut/pipeline/edit/replacement.pyx", "uttut/pipeline/edit/span.pyx"]}
{"id": "C78", "title": "What loads", "statement": "A text loads as an operator exactly if it is JSON for an object whose op_name is a registered class and whose op_kwargs are arguments this class accepts, and the result is what calling the class with these arguments gives; other keys are ignored. A text loads as a pipe exactly if it is JSON for an object with steps, each an object or a text of one that loads as an operator, consecutive ones fitting together, and with checkpoints; the pipe has these steps, which could be added by hand with add, and takes the checkpoints over as they are. Otherwise loading raises: ValueError for a text that is not JSON, TypeError for values of the wrong kind and for steps that do not fit, KeyError for missing keys and unregistered names, and the exception of the constructor. Checkpoints are not checked: a pipe without steps loads with a checkpoint after the seventh step, and asking for it raises IndexError. A text is read as a value exactly if the grammar of JSON (RFC 8259) says it stands for this value, in a dict the last value of a repeated key counts, and every other text raises ValueError. What serialize writes is in this grammar: an object with the class name and the arguments, tuples written as lists.", "quantifier": "all texts (numbers without fractions and exponents), registries, operators and pipes (checkpoints with int values)", "why_tests_cant": "Round trip tests load only texts that serialize wrote; which of all texts load, and as what, is a statement about every text.", "anchors": ["uttut/pipeline/pipe.py:236-253", "uttut/pipeline/ops/base.py:50-59", "uttut/pipeline/ops/factory.py:22-25"]}
{"id": "C79", "title": "Texts processed part by part", "statement": "Splitting an input in two, calling an operator on both parts and putting the results together gives what the call on the whole gives: the output, the labels in both directions and the exceptions. This holds for any split for Lowercase, AddWhitespaceAroundCJK, AddWhitespaceAroundPunctuation, PunctuationExceptEndpointToWhitespace, CharTokenizer, Token2Index, Token2IndexwithHash and PureNum2Token; for the number recognisers exactly where no number character meets a number character or the number characters that meet are no number, neither those before the split nor those after it nor together; for MergeWhiteSpaceCharacters exactly where no white space meets white space; for StripWhiteSpaceCharacters exactly where one part is blank or no white space is at the split; for WhiteSpaceTokenizer, EngTokenizer and ZhCharTokenizer exactly where the split is at a character that ends a token; for StopwordsToWhitespace, AddWhitespaceAroundWordnZhChar and CustomWordTokenizer where no word goes across, for CustomWordTokenizer exactly where the division of the text is that of the parts; for ReplaceAwithB where the matches of the whole are those of the parts; for SpanSubwords unless two empty tokens meet; for StripAccentToken where decomposing keeps lengths and goes part by part. AddSosEos (on non-empty lists), AddEndToken and Pad (to a positive length) never work part by part. A pipe of library operators works part by part if each step does on what it is given; when both parts raise, the pipe on the whole raises one of the two exceptions.", "quantifier": "all texts and token lists, all splits meeting the condition, all label lists, all pipes of library operators", "why_tests_cant": "Tests call an operator on whole texts; that calls on the parts agree with the call on the whole is a relation between three calls over all texts, splits and labels.", "anchors": ["uttut/pipeline/ops", "uttut/pipeline/pipe.py:74-143"]}
{"id": "C80", "title": "Objects shared between data", "statement": "Datum(...) makes new lists but keeps the given Entity and Intent objects: two data made from the same entities share them, and assigning to an attribute of an entity (or intent) changes every datum that holds it, at exactly the places where it does, with no check made again. Changing a list in place, or assigning to an attribute of a datum, changes exactly the data that have that list or that datum. Nothing else changes a datum: a program that assigns to none of a datum's own objects (itself, its two lists, their elements) leaves it and its objects as they are; no constructor, expand_by_entities, pack_to_datum or copy_intents changes an existing object, and a call that raises changes nothing. A command raises NameError exactly if it names an object that was never made. expand_by_entities of a datum with entities returns data made only of new objects, no two sharing any, so that whatever is done to one result leaves the input and the other results alone; of a datum without entities it returns the given object itself. pack_to_datum and copy_intents return new objects only. As long as nothing is assigned or changed in place, every datum of a program is valid; after an assignment it may not be.", "quantifier": "all programs (sequences of constructor calls, library calls, assignments and in-place list changes), all objects and attribute values", "why_tests_cant": "Tests compare values after a few calls; that an assignment reaches exactly the data that share an object, and that nothing else is ever affected, is a claim over all programs and all object graphs.", "anchors": ["uttut/elements.pyx:17-180", "uttut/expand_by_entities.pyx:41-71", "uttut/pipeline/utils.py:25-48"]}
{"id": "C81", "title": "Data described by names, end to end", "statement": "A transformer made by from_raw_dictionary knows exactly the names in its data (the reserved name __NOT_ENTITY__ apart, see C54). For a raw dictionary with known names machanize never raises KeyError or EntityPositionError: it raises OverflowError exactly if a position is no C int, otherwise EntityOverlapping exactly if two entities, sorted by start, overlap, and otherwise returns the datum with the labels of the names. humanize succeeds exactly if all labels are known. With not_entity_index 0, a raw dictionary that is read, sent through a pipe of built-in operators, realigned, packed and named again says the same exactly if none of its entities is empty or has replacements, no two touching entities have the same name, and every character got its label back. Whatever known labels are predicted for the output of a pipe and whatever known intents, realigning, packing and naming succeeds and names exactly the maximal runs of labels; reading the names gives the same labels again. Every datum made by expand_by_entities can be named, with the same intent names and the same entity names in order. With not_entity_index other than 0 one known entity name is labelled 0 and can never come back, and text labelled not_entity_index makes humanize raise KeyError.", "quantifier": "all data sets, raw dictionaries, transformers, texts below 2^31 characters, pipes of built-in operators, predicted labels and intents, set iteration orders", "why_tests_cant": "The claim composes the transformer, packing, expansion and every operator for all data and all predictions; tests follow single sentences through single steps.", "anchors": ["uttut/transformers/ordinal_label.py:12-136", "uttut/pipeline/utils.py:1-69", "uttut/__init__.py:12-17", "uttut/pipeline/pipe.py:74-143", "uttut/expand_by_entities.pyx:41-71"]}
{"id": "C82", "title": "What error messages and reprs say", "statement": "The text of an EntityPositionError gives the start, end and value of the first entity, in order of starts, whose value is not the text at its place, and the text that is there; positions (and, for values of one line, values) can be read off the text without doubt. The text of an EntityOverlapping names the first overlapping pair of neighbours in order of starts. humanize raises only KeyError; the text gives the first intent number without a name or, if there is none, the first entity label without a name. Joining tokens is refused exactly if there are more or fewer of them than spans, the group is not finished, or a token has another length than its span, each with its own text; the last names the position of the first unfit token. add_op, register, operator look-up and checkpoint look-up name the types or the name at fault. The TypeError for new values of different types names a position in the iteration order of a set, not in the order of adding. repr of intents and str of replacements tell different values apart; repr of entities tells labels apart but not replacements, and equal entities can have different reprs.", "quantifier": "all utterances, entities, intents, transformers, token lists, span groups, replacements, pipes, names, set iteration orders", "why_tests_cant": "That the reported element is always the first faulty one and that the reported numbers can always be read back is a claim over all inputs; tests compare single messages, if any.", "anchors": ["uttut/utils.py:1-37", "uttut/elements.pyx:54-61", "uttut/elements.pyx:100-101", "uttut/elements.pyx:116-136", "uttut/transformers/ordinal_label.py:38-71", "uttut/pipeline/edit/lst2str.py:16-21", "uttut/pipeline/edit/replacement.pyx:52-72", "uttut/pipeline/edit/replacement.pyx:113-118", "uttut/pipeline/pipe.py:52-77", "uttut/pipeline/intermediate.py:27-41", "uttut/pipeline/ops/factory.py:6-25"]}
{"id": "C83", "title": "Operators keep the lists and dicts they are made with", "statement": "Making an operator uses what its lists and dicts contain at that moment. As long as these keep their contents, the operator stays what it is whatever else the program does. If a program changes one of them in place, then: configs and the saved text show the present contents; Token2Index, Token2IndexwithHash and SpanSubwords work with the present contents at once and without any check (indices need not be continuous any more, a removed unk_token makes unknown tokens raise KeyError, the hash is taken modulo the present size, 0 if the dict is empty); CustomWordTokenizer and AddWhitespaceAroundWordnZhChar go on with the words they were made with. Loading the saved text does what making the operator anew from the present contents does: it is refused if these are refused, and the loaded operator is == to the saved one although for the two classes with words it works differently. Operators loaded from a text are not affected by any program.", "quantifier": "all programs that make lists, dicts and operators, change the lists and dicts in place and load operators, in any order; all classes and arguments", "why_tests_cant": "Effects of later changes to arguments depend on which class keeps what by reference, over all programs; unit tests build an operator and use it at once.", "anchors": ["uttut/pipeline/ops/base.py:20-74", "uttut/pipeline/ops/token_to_index.py:45-81", "uttut/pipeline/ops/token_to_index_with_hash.py:37-70", "uttut/pipeline/ops/span_subwords.py:46-85", "uttut/pipeline/ops/tokenizers/custom_word_tokenizer.py:37-49", "uttut/pipeline/ops/add_whitespace_around_word_n_zhchar.py:46-58"]}
{"id": "C84", "title": "Arguments of unexpected types", "statement": "Words for CustomWordTokenizer and AddWhitespaceAroundWordnZhChar may come in a list, a tuple, a text (its characters) or a dict (its keys), and shortest may be any value, taken by its truth; no words at all are a ValueError, a repeated word an AttributeError, a number instead of the words or a word that is a number or None a TypeError, the first fault in order counting. AddSosEos, Pad and PureNum2Token take numbers as tokens (True is 1), AddEndToken does not. Pad is made with any maxlen: one that is no number fails with TypeError at every call, a negative one with OverflowError. Token2Index and Token2IndexwithHash refuse what is no dict (AttributeError) and dicts with values that are no numbers - with TypeError if a value cannot be hashed, otherwise with ValueError if two values are equal, it is the only value or all values are texts, and with TypeError in all other cases -, take truth values as 0 and 1, and Token2Index refuses an unk_token that is no text with KeyError or, if it can not be hashed, TypeError. SpanSubwords asks a dict for its keys, a list or tuple for its elements, a text for its parts; anything else fails with TypeError exactly when a word has to be looked up; a maxlen_per_token that is no number fails on every list but the empty one. ReplaceAwithB with a replacement that is no text changes nothing as long as nothing matches and raises TypeError otherwise; a pattern that is no text is a TypeError.", "quantifier": "all argument values (None, truth values, integers, texts, nested lists, tuples and dicts), all ways to pass them, all inputs", "why_tests_cant": "Python checks no types; which wrong values are refused when made, which fail later and which silently mean something else is a claim over all values and inputs.", "anchors": ["uttut/pipeline/ops/utils/trie.py:13-70", "uttut/pipeline/ops/add_sos_eos.py", "uttut/pipeline/ops/pad.py", "uttut/pipeline/ops/pure_num_to_token.py:17-40", "uttut/pipeline/ops/add_end_token.py", "uttut/pipeline/ops/token_to_index.py:10-53", "uttut/pipeline/ops/token_to_index_with_hash.py:37-42", "uttut/pipeline/ops/span_subwords.py:46-171", "uttut/pipeline/ops/pattern_recognizers/replace_a_with_b.py"]}
{"id": "C85", "title": "Operators written by users", "statement": "A class statement for an operator whose name is taken (by a built-in class or an earlier class) raises KeyError and changes nothing; otherwise it succeeds exactly if the type and aligner attributes are there. If one is missing it raises AssertionError, but the name stays taken, by a class whose objects can be made and whose transform always fails, and the corrected class is refused. No class statement changes what saved operators and pipes that could be loaded before mean. A subclass without its own __init__ behaves like its parent but remembers keyword arguments only: passed by position they are neither saved nor compared. A Tokenizer subclass places its tokens from left to right, each at its first occurrence after the one before; it raises ValueError exactly if the tokens do not occur in that order without overlap, and labels are moved by the author's label functions along this placement; if text was dropped the placement may be wrong and labels are silently misassigned. A PatternRecognizer subclass replaces exactly the matches of its search and moves labels by the author's functions at the matches and unchanged elsewhere, unless its search finds empty matches for ever. An AddWhitespaceAroundCharacter subclass surrounds exactly the accepted characters, new blanks get label 0 and labels come back exactly. Pipes of built-in and own operators keep labels aligned, and never make up labels other than 0.", "quantifier": "all sequences of class statements, all tokenize functions, search functions, character predicates and label functions that return one label per position, all arguments, inputs and labels, all mixtures in pipes", "why_tests_cant": "The base classes are meant to be subclassed; what holds for every subclass a user may write can not be tested on the subclasses that exist.", "anchors": ["uttut/pipeline/ops/base.py:11-110", "uttut/pipeline/ops/factory.py", "uttut/pipeline/ops/tokenizers/base.py:11-83", "uttut/pipeline/ops/pattern_recognizers/base.py:9-90", "uttut/pipeline/ops/add_whitespace_around_character.py:11-48", "uttut/pipeline/edit/str2lst.py"]}
{"id": "C86", "title": "Lists that are changed after they were handed over", "statement": "A label aligner keeps the very list its operator was given, and a pipe gives every step, and the caller, the very list the step before returned. No operator, pipe or aligner changes a list it is given, and output lists are new lists. After any changes the caller makes to these lists, labels are carried forward as before. Labels that could be carried back right after the run are carried back to the same labels, or inverse_transform raises ValueError: for Pad that had to cut, exactly if the list is now shorter than it was, for SpanSubwords exactly if a word that was replaced lies beyond the end of the list now, never for the other operators. If none of the lists of the run was changed, everything is as before. The aligners of Token2Index, Token2IndexwithHash and PureNum2Token return the label list they are given itself, so changing the result changes the caller's labels; those of the other operators on lists return a new list.", "quantifier": "all programs that make lists, change them in place, run operators and pipes and call aligners, in any order, on all lists and labels, with all arguments of the operators", "why_tests_cant": "Sharing shows only in some order of calls and changes; that no order gives wrong labels silently is a claim over all programs.", "anchors": ["uttut/pipeline/ops/base.py:114-243", "uttut/pipeline/pipe.py:200-298", "uttut/pipeline/ops/add_sos_eos.py:69-90", "uttut/pipeline/ops/pad.py:38-90", "uttut/pipeline/ops/span_subwords.py:52-109", "uttut/pipeline/edit/lst2lst.py", "uttut/pipeline/ops/label_propagation.pyx"]}
{"id": "C87", "title": "What pipes and intermediates hand out", "statement": "Iterating over a pipe gives its steps in order, `op in pipe` asks for an equal step, an empty pipe counts as false. intermediate[k] is what the first k steps give, the remaining steps run on it give the output, and the label aligners of both runs are the parts of the label aligner of the whole run; negative numbers count back from the output, all other numbers raise IndexError; slices select exactly the positions of Python's rule; iterating gives all values from input to output. `pipe.steps` and `pipe.checkpoints` are the live list and dict: changing the list changes this pipe and nothing else, changing the dict changes this pipe and the names known to its intermediates, also the earlier ones, and nothing else. An intermediate keeps the values of its run for ever and looks names up in the checkpoints its pipe has at that time, so after a change of the dict the same name can mean the value of another step. Steps put in by hand that do not fit never run without an exception: the first one that does not fit raises TypeError if the ones before run. `p += p` doubles a pipe without checkpoints whose types fit; with checkpoints it raises KeyError and changes nothing.", "quantifier": "all pipes, inputs, indices, slices and all programs that make, run, add and slice pipes and change the lists and dicts they hand out, in any order", "why_tests_cant": "Aliasing between a pipe, its intermediates and the caller shows only in some order of calls; tests look at one order.", "anchors": ["uttut/pipeline/pipe.py:93-132", "uttut/pipeline/pipe.py:200-224", "uttut/pipeline/pipe.py:258-269", "uttut/pipeline/intermediate.py:14-57"]}
{"id": "C88", "title": "Entity overlapping ratio in floating point", "statement": "The ratio as computed with floats: data over different utterances raise DifferentUtterance and empty utterances ZeroDivisionError whatever the rate, otherwise the result is a float. Exchanging the data changes nothing, not even the last bit. For rates from 0 to 1 the result lies between 0 and 1 in spite of rounding. Equal labels give exactly 1; the result 1 means equal labels if the rate is at least length / 2^53, but not for all smaller rates. A higher rate never gives a higher ratio. For rates that are whole numbers the penalties are added without rounding, so that the result is the exact quotient rounded once and subtracted from 1 with one more rounding. For non-negative rates the distance to the exact ratio is at most (2 * length + 6) * max(1, rate) / 2^53.", "quantifier": "all data pairs, all rates that are floats, utterances up to 2^52 or 2^53 characters", "why_tests_cant": "Rounding errors depend on the length and the rate in ways that samples do not show; symmetry and bounds to the last bit need all of them.", "anchors": ["uttut/entity_overlapping_ratio.py:45-78"]}
{"id": "C89", "title": "Labels keep their order", "statement": "Built-in operators and pipes of them never change the order of labels. Carried forward or back, each label of the result is 0 or is taken from a place of the given labels, and these places never go backwards. So a label whose places lie side by side before (nothing but 0 in between) is not torn apart by another label. Pipe.transform of a datum walks through the utterance from left to right: each output label is 0 or the label of the entity around the place reached, and what stands for an entity stands before what stands for a later one. Entities made of labels predicted for the output stand in the order of the predictions they come from.", "quantifier": "all built-in operators with all accepted arguments, all pipes of them, all inputs, all label lists (given or predicted), all data", "why_tests_cant": "The order must hold for every text, every edit and every combination of operators; a test shows a single one.", "anchors": ["uttut/pipeline/edit/label_propagation.pyx:8-140", "uttut/pipeline/ops/label_transducer.py", "uttut/pipeline/ops/base.py:184-218", "uttut/pipeline/pipe.py:74-143", "uttut/pipeline/utils.py:1-69"]}
{"id": "C90", "title": "Which inputs raise an exception, and how large results are", "statement": "Steps made by name with arguments of the documented types, where each takes what the one before it gives (a text, a list of non-empty words, a list of tokens). On any input of the right kind whose bound stays below 2^32, such a pipe returns a sequence of the promised kind or raises one of the exceptions its steps may raise: AssertionError for StripAccentToken, no termination for ReplaceAwithB, none for all other built-in operators. The sizes (characters) of the output and all intermediates are at most the stated linear function of the size of the input (each operator has its own factor, e.g. 3 for added spaces, 7 for integer tokens). If no step may raise, then transforming any datum with entities in range does not raise; and on the way of a prediction nothing raises: transforming a text, mapping back any known labels as many as the output has, packing them and giving them names. This holds for the README's pipe of any length with any valid vocabulary.", "quantifier": "all lists of built-in operators that fit together with all arguments of the documented types, all inputs of the right kind within the size bound, all data, all predictions of known labels, all transformers", "why_tests_cant": "That a service never raises is a statement about all texts and all predictions; the size bound is about all texts and all compositions of steps.", "anchors": ["uttut/pipeline/pipe.py:74-143", "uttut/pipeline/ops/base.py:23-120", "uttut/pipeline/ops", "uttut/pipeline/utils.py:1-69", "uttut/transformers/ordinal_label.py", "README.md"]}
{"id": "C91", "title": "The 32-bit arithmetic of the compiled code changes nothing below the limits", "statement": "The compiled edit and label code counts with unsigned 32-bit integers that wrap around silently. For every operator, however it is made (by a call with any arguments, from a dict, from saved text) and every pipe (built by add, or loaded): as long as each sequence that goes into a step has at most 2^31 elements and each that comes out fewer than 2^32, outputs, exceptions, labels and mapped-back labels are those of exact arithmetic, so that all other properties hold of the compiled code. For steps that fit together a bound on the size of the input follows; for the README's pipe about 10^8 characters, below which no prediction raises. Past the limits: an edit with 2^31 + 1 replacements silently loses a new value; Pad to maxlen >= 2^32 pads, but labels then always raise (ValueError there; AssertionError or ValueError back); setting apart a character at a position from 2^32 - 1 on, or a match of a pattern recognizer that ends at 2^32 or later, raises OverflowError.", "quantifier": "all built-in operators with all arguments, all edits, all pipes, all inputs within the limits, all labels; for the negative part all maxlen >= 2^32 and all texts", "why_tests_cant": "The failures need sequences of billions of elements, and that none occurs below is a statement about all programs and inputs.", "anchors": ["uttut/pipeline/edit/utils.pyx:1-102", "uttut/pipeline/edit/label_propagation.pyx", "uttut/pipeline/edit/replacement.pyx", "uttut/pipeline/edit/span.pyx", "uttut/pipeline/ops"]}
{"id": "C92", "title": "Equality of operators and pipes", "statement": "Two values given as arguments compare equal exactly if they are equal as Python says: numbers by value (True == 1), texts, lists and tuples element by element, dicts as the same keys with equal values in any order. A built-in operator class called with equal arguments raises the same exception both times, or gives operators that compare equal and answer every input alike. Built-in operators that compare equal have the same class and answer every input alike; pipes of built-in operators that compare equal do the same on every sequence and every datum, have the same types, and answer every checkpoint name alike. == is reflexive, symmetric and transitive on operators and pipes. The converse fails: a CustomWordTokenizer with its words in another order behaves alike, but is not equal. (For classes written by users, equal operators may behave differently: C85.)", "quantifier": "all built-in operator classes, all arguments, all operators made by calls, all pipes of them, all inputs", "why_tests_cant": "That equal operators act alike is a statement about all pairs of arguments and all inputs; tests compare a few pairs of operators and never run both.", "anchors": ["uttut/pipeline/ops/base.py:143-150", "uttut/pipeline/pipe.py:79-94", "uttut/pipeline/ops"]}
{"id": "C93", "title": "A labelling service saved in one process and loaded in another", "statement": "A pipe of built-in operators whose arguments are JSON values and a transformer of names, both saved as text, load in any other process, whatever its hash seed. There every example is prepared for training as before (same output sequence, intents and labels), every text is encoded as before, and every prediction for a text, mapped back, packed and given names, gives the same result, exceptions included; for texts on which AddSosEos receives an empty list the hash seed may show, otherwise not, and never if the pipe has no AddSosEos. The loaded pipe has the same checkpoints, and saving both again writes the same texts.", "quantifier": "all pipes of built-in operators with JSON arguments, all transformers, all pairs of set orders, all examples, all texts, all predictions", "why_tests_cant": "Tests run in one process with one hash seed; agreement is a statement about all seeds, texts and predictions together.", "anchors": ["uttut/pipeline/pipe.py:178-257", "uttut/pipeline/ops/base.py:52-80", "uttut/transformers/ordinal_label.py", "uttut/pipeline/utils.py:1-69"]}
{"id": "C94", "title": "Checkpoints that are not a dict of step numbers", "statement": "Loading a pipe does not look at what the text has under checkpoints: any JSON value is taken over. The pipe then transforms sequences and data as if it had other checkpoints, and saved and loaded again it is the same pipe. Asking for a name in a dict raises KeyError if it is missing, TypeError if its position is neither an int nor a bool, IndexError if the position is out of range; in a list or text TypeError if the name occurs in it and KeyError otherwise; in other values TypeError. add with a checkpoint name always adds the operator (if its types fit), and then raises KeyError for a name that occurs in the dict, list or text, and TypeError for other values that are no dicts. += raises AttributeError if one of the two is no dict, and changes nothing; if a position of the second pipe is no number it raises TypeError, but the steps of the second pipe have been added. copy and + raise AttributeError for values other than dicts and lists. A slice raises AttributeError for values that are no dicts, and TypeError if a position is no number, or if the slice has no start and there is a checkpoint. summary prints three lines and raises AttributeError for values that are no dicts, TypeError for positions that are lists or dicts. For dicts of ints every method does what the other properties say.", "quantifier": "all texts (numbers without fractions and exponents), all JSON values as checkpoints, all pipes, operators, names, slices", "why_tests_cant": "Tests load only texts that serialize wrote; the checkpoints of a text written by hand or by another program can be any value, and the failures appear later, in other methods.", "anchors": ["uttut/pipeline/pipe.py:52-176", "uttut/pipeline/pipe.py:226-257", "uttut/pipeline/intermediate.py:27-41"]}
{"id": "C95", "title": "Which calls warn", "statement": "len and bool of a group of replacements or spans issue one UserWarning exactly if done has not succeeded on it, == issues one per unfinished group (comparing with any other object: one for the group itself), and each then gives its usual result. Applying an unfinished group of replacements warns once and raises RuntimeError. Inverting one warns twice and raises RuntimeError; if it is empty it warns once and gives the finished empty group. Reducing labels over an unfinished group of spans warns once and raises RuntimeError (unless group and labels are empty); spreading labels warns once and raises ValueError if the lengths differ, and otherwise warns twice and raises RuntimeError (unless both are empty); joining tokens warns once; splitting a text and computing the spans of tokens never warn. On groups on which done has succeeded none of these warns. If the warnings are turned into exceptions, the first warning is what the call raises. Pipe.add issues one DeprecationWarning whatever its arguments, before it looks at them, and then does what it does; with deprecation warnings turned into exceptions it always raises and leaves the pipe as it is. Importing the BERT pipes issues 7, 8 and 2 of them, or fails at the first.", "quantifier": "all groups, finished or not, all sequences, labels, label functions, pipes, operator names and arguments, all choices of the categories that raise", "why_tests_cant": "Tests check single warnings on sample groups under the default filter; the number of warnings per call and the behaviour under filters that raise depend on the state of every group involved.", "anchors": ["uttut/pipeline/edit/replacement.pyx:142-164", "uttut/pipeline/edit/span.pyx:94-116", "uttut/pipeline/edit/utils.pyx:32-102", "uttut/pipeline/edit/label_propagation.pyx:118-169", "uttut/pipeline/edit/lst2str.py:6-21", "uttut/pipeline/edit/str2lst.py:7-38", "uttut/pipeline/pipe.py:27-50", "uttut/pipeline/bert/basic.py:4-11"]}
{"id": "C96", "title": "Annotations of replacements", "statement": "Annotations decide nothing: after any sequence of add and done calls a ReplacementGroup holds the same replacements in the same order, can be read or not, and raises the same exceptions, whatever annotations were given. After done, successful or not, each replacement is in the group once, with the annotation it had when it was added first; later annotations of equal replacements are lost. add_all takes tuples of 3 elements (annotation None) and 4 elements and accepts, refuses and orders them as it does without annotations; a tuple of another length raises TypeError, unless an earlier tuple has a bound outside 0..2^32-1, which raises OverflowError.", "quantifier": "all sequences of calls with all arguments, all lists of tuples, all iteration orders of sets", "why_tests_cant": "Tests add a few replacements with annotations and do not look at what is kept of equal ones; which annotation survives depends on the set semantics over the whole history.", "anchors": ["uttut/pipeline/edit/replacement.pyx:39-140"]}
{"id": "C97", "title": "Constructors with any signature", "statement": "Operator classes may have constructors with *args, keyword-only parameters and **kwargs. The body gets every argument where Python's rules put it, else the call raises TypeError. configs holds the value of every ordinary parameter (default included) and the other keyword arguments that were given, and nothing else: surplus positional arguments and defaults of keyword-only parameters are not in it. So an operator survives saving and loading exactly as it was made unless there were surplus positional arguments; those are gone, and the loaded operator still counts as equal to the old one, as do all operators differing in them only. A keyword-only parameter given its default value makes an operator unequal to the one without it, though both do the same. A class that inherits its constructor notes down exactly the keyword arguments.", "quantifier": "all signatures (parameters, defaults, *args, keyword-only parameters, **kwargs), all calls, all constructor bodies", "why_tests_cant": "The tests' operators have at most two plain parameters; which arguments survive is a statement about all signatures and calls.", "anchors": ["uttut/pipeline/ops/base.py:15-74", "uttut/pipeline/ops/base.py:143-144"]}
{"id": "C98", "title": "BERT pipes against the reference tokenizer", "statement": "The project's tests compare the BERT pipes with the original BERT tokenizer on seven texts. word_piece_pipe agrees with it on every text, and SpanSubwords agrees with it for every vocabulary, unknown token and limit. basic_pipe agrees with it on every text without control characters, U+0000 and U+FFFD, without capital letters beyond ASCII, whose accents are stripped character by character and whose punctuation is not affected by that; more exactly, on texts that are lowered and stripped character by character without affecting punctuation both cut the text alike, and the tokens agree exactly when each character outside whitespace is lowered and stripped alike. full_pipe agrees wherever basic_pipe does. Everywhere else the pipes may differ: they keep control characters, keep accented capitals as capitals without the accent (so that full_pipe answers [UNK]), do not split off punctuation left over by stripping, and raise on combining marks. ZhCharTokenizer is the reference tokenizer without lowering, up to the discarded control characters. The vocabulary loader numbers entries by the last line holding them, and its numbers lead back to the tokens.", "quantifier": "all texts, all Unicode tables, all vocabularies and vocabulary files, all limits", "why_tests_cant": "The tests compare the two on seven texts, none of which has an accented capital, a control character, a combining mark or a composed symbol.", "anchors": ["uttut/pipeline/bert/tests/tokenization.py:121-402", "uttut/pipeline/bert/basic.py:4-11", "uttut/pipeline/bert/full.py:4-25", "uttut/pipeline/bert/word_piece.py:4-19", "uttut/pipeline/bert/tests/test_basic.py:9-39"]}
{"id": "C99", "title": "Entity overlapping ratio for every rate Python accepts", "statement": "With binary64 floats as they are (bounded exponents, subnormal numbers, infinities, NaN): for rates of absolute value up to 2^970, subnormal ones included, the ratio is a finite float, the one described in C88; for rates from 0 to 1 it lies between 0 and 1. For larger finite rates it is that float unless the sum of the penalties leaves the range of floats; from then on it is -inf (inf for a negative sum), never NaN. Unless some character has two different entities the rate is not used: even NaN, infinities and ints of any size give the same ratio. If some character has, NaN gives NaN, inf gives -inf, -inf gives inf, and an int of absolute value 2^1024 - 2^970 or more raises OverflowError. Any other int is used as the nearest float. NaN is the result in no other case. Exchanging the data never changes anything.", "quantifier": "all data pairs over utterances up to 2^53 characters, all floats and ints as rate", "why_tests_cant": "Whether rounding of tiny numbers, overflow of a partial sum or an infinity can turn into a wrong number or NaN depends on every partial sum; samples reach few of them.", "anchors": ["uttut/entity_overlapping_ratio.py:45-78"]}
{"id": "C100", "title": "Operators and pipes never warn", "statement": "Transforming with an object of any built-in operator class, or of a class written on Tokenizer, PatternRecognizer or AddWhitespaceAroundCharacter, made with any arguments, transforming a datum with any sequence of such objects in a pipe, and mapping labels through the resulting aligners in either direction issue no warning at all (unless the user's own functions do). So whatever a program has chosen to turn into exceptions (python -W error), the outcome of these calls, result or exception, is the same as without warnings; only Pipe.add, and code that uses groups of replacements or spans itself before done, is affected by such a choice.", "quantifier": "all built-in classes and such classes written by users, all arguments, all pipes of them, all data and labels, all choices of warnings turned into exceptions", "why_tests_cant": "A warning that is only reached on some inputs (a group left unfinished on one path) shows up as an exception in programs that turn warnings into errors; tests run the paths they know.", "anchors": ["uttut/pipeline/edit/replacement.pyx:158-164", "uttut/pipeline/edit/span.pyx:110-116", "uttut/pipeline/ops/base.py:114-218", "uttut/pipeline/pipe.py:178-224"]}
{"id": "C101", "title": "What repr shows of data, spans and replacements", "statement": "str and repr of a span tell different spans apart. repr of a replacement by a text gives its bounds, and its new value too if annotations are equally long (as without annotations); with annotations different replacements can look the same. repr of a ReplacementGroup tells only how many replacements it has, that of a SpanGroup nothing. repr of a datum shows the utterance, then the intents, then the entities in order, each of the two lists on one line if this has at most 80 characters and otherwise with one line for each element. If the utterances have one line, data with the same repr have the same utterance and the same intents, and if no value and no replacement contains <, also as many entities with the same labels, each with the same repr; if moreover there are no replacements, the data are the same. In general not: two data with the same utterance and entities at different places can have the same repr, and equal data different ones.", "quantifier": "all spans, replacements by texts, annotations, groups and data, all set iteration orders", "why_tests_cant": "Whether a printed form can be mistaken for another one is a statement about all pairs of values; tests print a few values.", "anchors": ["uttut/elements.pyx:151-155", "uttut/pipeline/edit/span.pyx:29-33", "uttut/pipeline/edit/span.pyx:118-119", "uttut/pipeline/edit/replacement.pyx:58-67", "uttut/pipeline/edit/replacement.pyx:166-169"]}
{"id": "C102", "title": "An entity stays in one piece", "statement": "Through most operators what carries the label of an entity stays in one piece: between two places with the label everything else is white space (in a text) or nothing (in a list of tokens). CharTokenizer, CustomWordTokenizer, StripAccentToken and ReplaceAwithB keep labels in consecutive places consecutive, as do Lowercase, IntToken, FloatToken, MergeWhiteSpaceCharacters, StripWhiteSpaceCharacters, the other tokenizers and all operators on token lists; ReplaceAwithB even with patterns that match empty texts. So through a pipe with operators of this kind first and then operators that may add white space, tokenizers that split at white space and operators on token lists, an entity whose label no other entity has ends as an interval of the tokens. CharTokenizer after an operator that adds white space tears entities.", "quantifier": "all these operators with all accepted arguments, all pipes of them in this order, all inputs, all labels other than 0, all data", "why_tests_cant": "That no text, pattern, argument and order of operators splits an entity is a statement about all of them; tests look at a few entities.", "anchors": ["uttut/pipeline/ops", "uttut/pipeline/edit/label_propagation.pyx:8-140", "uttut/pipeline/pipe.py:74-143", "uttut/pipeline/utils.py:1-69"]}
{"id": "C103", "title": "A predicted entity comes back in one piece", "statement": "If a label is predicted for consecutive tokens of the output, then in the labels that the aligners give back for the utterance every character between two characters with the label has it too, or is white space with the label 0; so in the datum packed from them two entities of the label have nothing but white space and entities of the label between them. This holds through all pipes made of Lowercase, AddWhitespaceAround..., the number operators, MergeWhiteSpaceCharacters, StripWhiteSpaceCharacters, all tokenizers, AddSosEos, AddEndToken, Pad, Token2Index, Token2IndexwithHash, PureNum2Token, ReplaceAwithB with a text that is not blank, StripAccentToken where it puts white space only for white space, and SpanSubwords on tokens that are not empty. PunctuationExceptEndpointToWhitespace tears predicted entities: the punctuation character itself gets the label 0.", "quantifier": "all these operators with all accepted arguments, all pipes of them, all inputs, all predicted labels, all labels other than 0", "why_tests_cant": "That no text, no pipe and no prediction leaves a hole in an entity is a statement about all of them; tests go back with a few label lists.", "anchors": ["uttut/pipeline/ops", "uttut/pipeline/edit/label_propagation.pyx:8-140", "uttut/pipeline/pipe.py:74-143", "uttut/pipeline/utils.py:1-69"]}
{"id": "C104", "title": "Doing a step twice", "statement": "Putting a step into a pipe twice in a row has the same outcome (output or exception, and labels in both directions) as putting it in once, on every input, for Lowercase, MergeWhiteSpaceCharacters, StripWhiteSpaceCharacters, PunctuationExceptEndpointToWhitespace, StopwordsToWhitespace, the five number operators for texts, and Pad; and a pipe of the first three, in any order and number, can be run on its own output without effect. For the other operators it is the same exactly when: AddWhitespaceAroundCJK, AddWhitespaceAroundPunctuation, AddWhitespaceAroundWordnZhChar: there is no such character or word in the text; StripAccentToken: the stripped text has another length (the exception) or is not changed by a second stripping; PureNum2Token: no integer is in the output; SpanSubwords: every piece is cut into itself (so always, if the unknown token is in the vocabulary and no entry is longer than the limit); Token2Index: all indices are that of the unknown token, which a second call puts in place of every index; tokenizers: the call raises an exception; AddSosEos, AddEndToken: never; Token2IndexwithHash: the list is empty, otherwise the second call raises TypeError. For ReplaceAwithB it is the same if the result has no match.", "quantifier": "all these operators with all accepted arguments, all inputs, all labels, all pipes of the three", "why_tests_cant": "That a second call changes nothing is a statement about all inputs; no test calls an operator on its own output.", "anchors": ["uttut/pipeline/ops", "uttut/pipeline/pipe.py:74-143"]}
{"id": "C105", "title": "The numbers of the entity classes do not matter", "statement": "If the entity classes get other numbers (different classes different numbers, 0 stays 0, numbers in the range of C int and unsigned int stay in it), every built-in operator and every pipe of them treats the data in the same way: a datum becomes the same output, intents and intermediate results with the renumbered entity labels (or raises the same exception), predicted labels that are renumbered come back renumbered, and packing them gives the same datum with renumbered entities. In particular any two positive classes can be exchanged. The conditions are needed: if two classes become one, a majority vote may turn out differently; if 0 moves, blanks get another class; a class number below 0 is lost at a tokenizer and raises OverflowError on the way back.", "quantifier": "all renumberings, all built-in operators with all accepted arguments, all pipes, all data, all labels", "why_tests_cant": "The claim relates two runs for every renumbering of every label list; tests use a handful of class numbers.", "anchors": ["uttut/pipeline/ops/base.py:177-243", "uttut/pipeline/ops/label_transducer.py", "uttut/pipeline/edit/label_propagation.pyx", "uttut/pipeline/utils.py:7-69"]}
{"id": "C106", "title": "What a call of expand_by_entities returns", "statement": "If expand_by_entities returns, with whatever sampling method, every datum in the result is the given one with each entity replaced by one of the texts that may stand for it: a replacement, or its value if the original values are included or it has no replacement. The texts between the entities, the intents and the entity labels are those of the given datum, and the entities lie where the new texts lie; so unpack_datum labels exactly the characters of each new text with the label of its entity. Without a sampling method every choice of such texts is in the result. No datum is in it twice, unless the original values are included and one of them is among the replacements of its entity: then one is. A result has no replacements left, so expand_by_entities returns it as it is.", "quantifier": "all data with entities within the utterance, sampling methods, both values of include_orig, all iteration orders of sets", "why_tests_cant": "A statement about all data and all choices of replacements; a test compares a few results literally.", "anchors": ["uttut/expand_by_entities.pyx", "uttut/toolkits/partition_by_entities.pyx", "uttut/toolkits/get_kth_combination.pyx"]}
{"id": "C107", "title": "Label functions of operators written by users", "statement": "If the label functions of a Tokenizer or PatternRecognizer subclass return, for each replaced text, labels that are 0 or come from the given ones in their order, the operator keeps all labels in order in both directions, and so does every pipe of such operators, AddWhitespaceAroundCharacter subclasses and built-in operators; what stands for an entity in its output stands before what stands for a later one. If the label functions do not depend on the numbers of the classes, neither do the operator, pipes of such operators and what Pipe.transform returns for a datum. The conditions cannot be dropped: whatever the functions do to the labels of a text is what some operator does with them.", "quantifier": "all such classes with all tokenize and search functions, character predicates and label functions, all arguments, mixtures in pipes, inputs, labels and renumberings", "why_tests_cant": "A statement about classes that do not exist yet.", "anchors": ["uttut/pipeline/ops/tokenizers/base.py", "uttut/pipeline/ops/pattern_recognizers/base.py", "uttut/pipeline/ops/add_whitespace_around_character.py"]}
{"id": "C108", "title": "What a model gets and gives back", "statement": "A pipe that ends in Pad(n) and Token2Index returns exactly n indices, all of them from the mapping, and takes and returns exactly n labels, whatever the other steps are; the same holds for Token2IndexwithHash instead of Token2Index. If it ends in AddSosEos, Pad(n) and Token2Index and the steps in front return at least one token, the result is the index of the start token, those of the tokens and that of the end token, cut or filled up to n with that of the filling token; labels of the tokens get 0 around them in the same way. What is predicted for the start token, the end token and the filling has no influence on the labels of the input. Labels come back as if the three steps were not there if n is at least the number of tokens plus one; otherwise those of the tokens cut off come back as 0. If n is smaller than the number of tokens plus two, the end token is cut off and nothing is reported. If the steps in front return no token and start and end token differ, the order of these two is not determined (C29), and no prediction has any influence. If the pipe ends in AddEndToken, Pad(n) and Token2Index, all this holds without the start token, for empty token lists too: the indices of the tokens and that of the end token, cut or filled up to n, and labels come back as if the three steps were not there if n is at least the number of tokens.", "quantifier": "all steps in front, inputs, lengths, mappings, special tokens and labels, with fewer than 2^32 tokens", "why_tests_cant": "The tests run one pipe of this kind on a few texts shorter than n; the statement is about all steps in front, all n and all predicted labels.", "anchors": ["uttut/pipeline/ops/add_sos_eos.py", "uttut/pipeline/ops/pad.py", "uttut/pipeline/ops/token_to_index.py", "uttut/pipeline/pipe.py"]}
{"id": "C109", "title": "Steps that deal with white space only", "statement": "A pipe of AddWhitespaceAroundCJK, AddWhitespaceAroundPunctuation, AddWhitespaceAroundWordnZhChar, MergeWhiteSpaceCharacters, StripWhiteSpaceCharacters and Lowercase steps, in any number and order, never fails on a text, keeps the characters that are not white space in order (up to case, if Lowercase is among the steps) and each with its label; labels given to the result come back to the same characters if white space has none, and this condition cannot be dropped. With a WhiteSpaceTokenizer, EngTokenizer or ZhCharTokenizer behind them the tokens joined are those characters; the label of a token is the most common label its characters have in the input, a label predicted for a token comes back to exactly its characters, and white space gets 0. Lists of labels of another length raise ValueError, labels of tokens out of range OverflowError. Two such pipes that return the same tokens (up to case) therefore do the same with all labels in both directions.", "quantifier": "all pipes of these steps, all user words, all texts, all labels; labels of tokens in [0, 2^32)", "why_tests_cant": "The tests check single steps on single texts; the statement is about all combinations of steps.", "anchors": ["uttut/pipeline/ops/add_whitespace_around_character.py", "uttut/pipeline/ops/add_whitespace_around_word_n_zhchar.py", "uttut/pipeline/ops/pattern_recognizers/merge_whitespace_characters.py", "uttut/pipeline/ops/pattern_recognizers/strip_whitespace_characters.py", "uttut/pipeline/ops/tokenizers/base.py", "uttut/pipeline/pipe.py"]}
{"id": "C110", "title": "Which steps, not in which order", "statement": "In a pipe of AddWhitespaceAroundCJK, AddWhitespaceAroundPunctuation, MergeWhiteSpaceCharacters, StripWhiteSpaceCharacters and Lowercase steps in front of a WhiteSpaceTokenizer, EngTokenizer or ZhCharTokenizer, the tokens are the words of the text, cut at white space and around the ideographs (if one of the steps deals with them) and the punctuation (if one of the steps deals with it), in small letters if Lowercase is among the steps. The order of the steps before the tokenizer and repeating them make no difference to tokens, exceptions and labels in both directions, and two such pipes that cut off the same characters and agree on Lowercase can stand for each other. Without a tokenizer but with merging and stripping as the last two steps, the pipe returns these words with single blanks between them: running it again on the result changes nothing, and two texts get the same result exactly if they have the same words. With AddWhitespaceAroundWordnZhChar among the steps the order does matter.", "quantifier": "all pipes of these steps, all texts, all labels", "why_tests_cant": "The tests run fixed pipes on fixed texts; the statement compares all orders and numbers of steps on all texts.", "anchors": ["uttut/pipeline/ops/add_whitespace_around_character.py", "uttut/pipeline/ops/pattern_recognizers/merge_whitespace_characters.py", "uttut/pipeline/ops/pattern_recognizers/strip_whitespace_characters.py", "uttut/pipeline/ops/tokenizers/base.py", "uttut/pipeline/ops/lowercase.py", "uttut/pipeline/pipe.py"]}
{"id": "C111", "title": "Adding tokens or their numbers", "statement": "Steps that add tokens (Pad, AddSosEos, AddEndToken, any number of them) in front of Token2Index, Token2IndexwithHash or PureNum2Token can be moved behind it if their tokens are replaced by what that step makes of them: the same output and the same answer to every list of labels (of any length) in both directions, for every list of tokens the step accepts; wherever these steps stand in a pipe. If no Pad cuts tokens off, lists the step does not accept raise the same exception too; a Pad that cuts off the offending tokens does make a difference. AddEndToken cannot be moved behind the two steps that give numbers: its token has to be a str. AddSosEos needs a token to stand around (see C28).", "quantifier": "all such pipes, all lists of tokens, all labels", "why_tests_cant": "The tests check each step alone; the statement compares pipes with the steps in different places, on all lists and labels.", "anchors": ["uttut/pipeline/ops/pad.py", "uttut/pipeline/ops/add_sos_eos.py", "uttut/pipeline/ops/add_end_token.py", "uttut/pipeline/ops/token_to_index.py", "uttut/pipeline/ops/token_to_index_with_hash.py", "uttut/pipeline/ops/pure_num_to_token.py", "uttut/pipeline/pipe.py"]}
{"id": "C112", "title": "Characters of serialized texts", "statement": "OrdinalLabel.serialize returns one line of printable ASCII, whatever characters the names contain, so the text can be written in every encoding and as a line of a file. The texts of operators and pipes contain no control characters but line feeds; a character beyond ASCII occurs in the text of an operator exactly if it occurs in the name of its class or in one of its arguments (texts and keys at any depth), and in the text of a pipe exactly if it occurs so in one of its steps or in the name of a checkpoint: these characters are written as they are, so the texts have to be stored in an encoding that has them.", "quantifier": "all label transformers, operators and pipes", "why_tests_cant": "The tests compare fixed texts; the statement is about all names and arguments.", "anchors": ["uttut/transformers/ordinal_label.py", "uttut/pipeline/ops/base.py", "uttut/pipeline/pipe.py"]}
{"id": "C113", "title": "Steps that deal with different characters can be put in any order", "statement": "IntToken, FloatToken, their WithSpace variants, NumTokenWithSpace, MergeWhiteSpaceCharacters, Lowercase, AddWhitespaceAroundCJK, AddWhitespaceAroundPunctuation and PunctuationExceptEndpointToWhitespace each deal with some characters (digits and points, white space, capitals, ideographs, punctuation marks) and write some characters. Two of them can be exchanged, anywhere in a pipe, if no character concerns both and neither writes a character that concerns the other: the same text or exception and the same answer to every list of labels in both directions. A recogniser of integers and one of decimals can also be exchanged. A group of steps any two of which are such can be put in any order. The pairs of which this is so are listed, and the list is exact: of any other two different steps among these the order matters, and one fixed text shows it for each of the 21 pairs (for example IntTokenWithSpace with MergeWhiteSpaceCharacters, or IntToken with AddWhitespaceAroundPunctuation).", "quantifier": "all texts, all lists of labels, all pipes, all orders of such steps", "why_tests_cant": "The tests run each operator on its own on a few texts; the statement compares pipes on all texts and labels.", "anchors": ["uttut/pipeline/ops/pattern_recognizers/int_token.py", "uttut/pipeline/ops/pattern_recognizers/float_token.py", "uttut/pipeline/ops/pattern_recognizers/int_token_with_space.py", "uttut/pipeline/ops/pattern_recognizers/float_token_with_space.py", "uttut/pipeline/ops/pattern_recognizers/num_token_with_space.py", "uttut/pipeline/ops/pattern_recognizers/merge_whitespace_characters.py", "uttut/pipeline/ops/lowercase.py", "uttut/pipeline/ops/add_whitespace_around_cjk.py", "uttut/pipeline/ops/add_whitespace_around_punctuation.py", "uttut/pipeline/ops/punctuation_except_endpoint_to_whitespace.py", "uttut/pipeline/pipe.py"]}
{"id": "C114", "title": "Which inputs a step does not tell apart", "statement": "Two inputs give the same output exactly when: Lowercase - they differ in the case of ASCII letters only; PunctuationExceptEndpointToWhitespace - they differ in blanks and in punctuation marks other than the point only, one for one; MergeWhiteSpaceCharacters - they differ in which and how much white space stands at a place only; StripWhiteSpaceCharacters - they differ in the white space at the ends only; WhiteSpaceTokenizer - both of the last two; Pad - what fits into the length differs in padding tokens at the end only; PureNum2Token - they differ in texts of digits and the token for those only; Token2Index - they differ in tokens that are not listed and the token for those only; Token2IndexwithHash - they are the same after each token that is not listed is replaced by a certain listed token. AddWhitespaceAroundCJK, AddWhitespaceAroundPunctuation, CharTokenizer, CustomWordTokenizer, AddSosEos and AddEndToken lose nothing: different inputs give different outputs. The number recognisers make the same of texts that differ in the numbers they recognise, and also of a number and the literal token. A pipe of steps that lose nothing loses nothing, and what the first steps of a pipe do not tell apart gets the same output or exception from the pipe.", "quantifier": "all pairs of inputs (of fewer than 2^32 tokens for Pad, AddSosEos and AddEndToken, of at least one token for AddSosEos), all parameters with which the step is made, all pipes", "why_tests_cant": "The tests look at single inputs; the statement is about all pairs of inputs.", "anchors": ["uttut/pipeline/ops/lowercase.py", "uttut/pipeline/ops/punctuation_except_endpoint_to_whitespace.py", "uttut/pipeline/ops/pattern_recognizers/merge_whitespace_characters.py", "uttut/pipeline/ops/pattern_recognizers/strip_whitespace_characters.py", "uttut/pipeline/ops/tokenizers/whitespace_tokenizer.py", "uttut/pipeline/ops/pad.py", "uttut/pipeline/ops/pure_num_to_token.py", "uttut/pipeline/ops/token_to_index.py", "uttut/pipeline/ops/token_to_index_with_hash.py", "uttut/pipeline/ops/add_whitespace_around_cjk.py", "uttut/pipeline/ops/add_whitespace_around_punctuation.py", "uttut/pipeline/ops/tokenizers/char_tokenizer.py", "uttut/pipeline/ops/tokenizers/custom_word_tokenizer.py", "uttut/pipeline/ops/add_sos_eos.py", "uttut/pipeline/ops/add_end_token.py", "uttut/pipeline/ops/pattern_recognizers/int_token.py", "uttut/pipeline/pipe.py"]}
{"id": "C115", "title": "Word lists, vocabularies and data that grow", "statement": "If further words are added to the list of CustomWordTokenizer or AddWhitespaceAroundWordnZhChar, nothing changes (same output, same answers to labels) for texts in which none of the new words occurs. For CustomWordTokenizer nothing changes if no new word is among the tokens it now gives; without `shortest` something changes exactly when a new word of two or more characters is among them. If entries are added to the vocabulary of SpanSubwords, nothing changes for tokens into which none of the new entries fits (as start, or behind ## as a part), nor if what it now gives contains neither a new entry nor the token for unknown ones. If entries are added to the mapping of Token2Index, exactly the lists with one of the new words change; for Token2IndexwithHash lists of listed tokens do not change. A pipe whose step is replaced so does not change if the step gives the same on what reaches it. If data are added behind the data from which an OrdinalLabel is made, every datum that could be translated before is translated as before, in both directions. What can change: a new word can break an old one that overlaps it, a new entry can make a known word unknown, a new entry renumbers unknown tokens that are hashed, and data put in front renumber the names.", "quantifier": "all word lists, vocabularies, mappings and data with all additions, all texts, lists of tokens, labels and pipes", "why_tests_cant": "The tests use one word list or vocabulary for each operator; the statement compares all pairs of a list and a longer one.", "anchors": ["uttut/pipeline/ops/tokenizers/custom_word_tokenizer.py", "uttut/pipeline/ops/add_whitespace_around_word_n_zhchar.py", "uttut/pipeline/ops/span_subwords.py", "uttut/pipeline/ops/token_to_index.py", "uttut/pipeline/ops/token_to_index_with_hash.py", "uttut/pipeline/pipe.py", "uttut/transformers/ordinal_label.py"]}
{"id": "C116", "title": "Changing the length to which tokens are padded", "statement": "Two pipes differ only in the length n <= m of a Pad behind which only Token2Index, Token2IndexwithHash and PureNum2Token stand. If the one with m returns a result, the one with n returns its first n tokens, and for every list of labels the first n of its labels. n labels come back through the shorter pipe as through the longer one with 0 for the other places, and tokens that did not fit get 0. If all tokens fit into n, m labels come back through the longer pipe as their first n do through the shorter one. Pad to m and then to n <= m is the same as Pad to n with the token of the first (same output, same answers to all labels); Pad to m and then to a larger n is the same as Pad to n alone exactly if the tokens fit into m.", "quantifier": "all steps in front of Pad, all inputs, lengths, tokens and labels, with fewer than 2^32 tokens", "why_tests_cant": "The tests pad a few lists to one length each; the statement compares all pairs of lengths on all inputs and labels.", "anchors": ["uttut/pipeline/ops/pad.py", "uttut/pipeline/ops/token_to_index.py", "uttut/pipeline/ops/token_to_index_with_hash.py", "uttut/pipeline/ops/pure_num_to_token.py", "uttut/pipeline/pipe.py"]}
{"id": "C117", "title": "What a step can produce", "statement": "The outputs of a step are exactly: the texts without ASCII capitals (Lowercase); with no punctuation mark but points (PunctuationExceptEndpointToWhitespace); whose white space is single blanks (MergeWhiteSpaceCharacters); without white space at the ends (StripWhiteSpaceCharacters); without a number of the kind it recognises (the number recognisers); in which no stop word occurs (StopwordsToWhitespace). Each of these steps returns exactly the same texts unchanged, so at the end of a pipe doing it once more changes nothing. WhiteSpaceTokenizer produces exactly the lists of non-empty texts without white space, EngTokenizer those of them in which punctuation marks stand alone, ZhCharTokenizer those in which ideographs stand alone as well, CharTokenizer the lists of single characters, Pad those of its length, Token2Index and Token2IndexwithHash those of numbers from 0 to one below the size of the dictionary, PureNum2Token those of its token and of texts that are not digits only. What a pipe returns its last step can produce.", "quantifier": "all sequences (both that every output has the form and that every sequence of the form is the output for some input), all ways to make the steps, all pipes", "why_tests_cant": "A test shows single outputs; that no input gives an output of another form needs all inputs, and that every sequence of the form is produced needs a witness for each.", "anchors": ["uttut/pipeline/ops/lowercase.py", "uttut/pipeline/ops/punctuation_except_endpoint_to_whitespace.py", "uttut/pipeline/ops/pattern_recognizers/merge_whitespace_characters.py", "uttut/pipeline/ops/pattern_recognizers/strip_whitespace_characters.py", "uttut/pipeline/ops/pattern_recognizers/int_token.py", "uttut/pipeline/ops/pattern_recognizers/int_token_with_space.py", "uttut/pipeline/ops/pattern_recognizers/num_token_with_space.py", "uttut/pipeline/ops/pattern_recognizers/float_token.py", "uttut/pipeline/ops/pattern_recognizers/float_token_with_space.py", "uttut/pipeline/ops/pattern_recognizers/stopwords_to_whitespace.py", "uttut/pipeline/ops/tokenizers/whitespace_tokenizer.py", "uttut/pipeline/ops/tokenizers/char_tokenizer.py", "uttut/pipeline/ops/tokenizers/eng_tokenizer.py", "uttut/pipeline/ops/tokenizers/zh_char_tokenizer.py", "uttut/pipeline/ops/pad.py", "uttut/pipeline/ops/token_to_index.py", "uttut/pipeline/ops/token_to_index_with_hash.py", "uttut/pipeline/ops/pure_num_to_token.py", "uttut/pipeline/pipe.py"]}
{"id": "C118", "title": "Words can be read back from their pieces", "statement": "Joining to the piece before it every piece of SpanSubwords's output that starts with ##, without the ##, gives the list of words back, with the unknown token in place of exactly those words that are too long or that longest-match segmentation does not cover. Two lists of words have the same pieces exactly if they differ only in words of which the step makes the unknown token alone: the words not covered and the unknown token itself if it is in the vocabulary. This is for words that are not empty and do not start with ## and an unknown token that does not start with ##; without each of these conditions different lists have the same pieces. Splitting the words read back gives the same pieces again, if the unknown token is itself kept whole. The tokens of EngTokenizer and ZhCharTokenizer are always such words, those of WhiteSpaceTokenizer if the text has no #, so the pieces from a pipe of one of them and SpanSubwords can be read back, and those of the full BERT pipe give the words of the basic one.", "quantifier": "all vocabularies, unknown tokens and length limits, all lists of words, all texts", "why_tests_cant": "A test reads back the pieces of single texts; that no two lists of words are split into the same pieces is a statement about all pairs of lists and all vocabularies.", "anchors": ["uttut/pipeline/ops/span_subwords.py", "uttut/pipeline/ops/tokenizers/eng_tokenizer.py", "uttut/pipeline/ops/tokenizers/zh_char_tokenizer.py", "uttut/pipeline/ops/tokenizers/whitespace_tokenizer.py", "uttut/pipeline/pipe.py", "uttut/pipeline/bert/full.py", "uttut/pipeline/bert/basic.py"]}
{"id": "C119", "title": "Which pipes settle", "statement": "A pipe settles if labels that have gone to the tokens and back go to the same tokens again, and labels of tokens that have gone to the text and forth come back the same: after one round nothing changes. Then a datum packed from labels that went through the pipe and back has the same output and token labels as the original, and a datum packed from predicted labels comes back if it is sent through the pipe and packed again. Pipes in general do not settle (C73). A pipe settles if it consists of, first, steps that give any labels of their output back (Lowercase, StripAccentToken, MergeWhiteSpaceCharacters, StripWhiteSpaceCharacters, all tokenizers, Token2Index, Token2IndexwithHash, PureNum2Token); then either one built-in step of any kind, or any number of steps, in any order, each of which is SpanSubwords or moves labels to other positions and fills the rest with fixed labels (Lowercase, StripAccentToken, StripWhiteSpaceCharacters, StopwordsToWhitespace, AddWhitespaceAroundWordnZhChar, PunctuationExceptEndpointToWhitespace, AddSosEos, AddEndToken, Pad, Token2Index, Token2IndexwithHash, PureNum2Token); then steps that give any labels of their input back (Lowercase, StripAccentToken, the AddWhitespaceAround steps, AddSosEos, AddEndToken, Token2Index, Token2IndexwithHash, PureNum2Token). In another order such steps need not settle: AddWhitespaceAroundPunctuation before PunctuationExceptEndpointToWhitespace or before MergeWhiteSpaceCharacters does not, nor does PunctuationExceptEndpointToWhitespace before MergeWhiteSpaceCharacters. Every operator that is not among those said to give labels back loses some, of its output or of its input, and none but those listed only moves or copies labels. The three BERT pipes settle, and the basic one gives any labels of its tokens back.", "quantifier": "all pipes of that form, however long, all inputs and all labels", "why_tests_cant": "A test sends single labels through single pipes; a combination of steps that each settle may not, so testing the steps says nothing about the pipes.", "anchors": ["uttut/pipeline/pipe.py", "uttut/pipeline/bert/basic.py", "uttut/pipeline/bert/full.py", "uttut/pipeline/bert/word_piece.py", "uttut/pipeline/ops/base.py", "uttut/pipeline/ops/add_sos_eos.py", "uttut/pipeline/ops/pad.py", "uttut/pipeline/ops/token_to_index.py"]}

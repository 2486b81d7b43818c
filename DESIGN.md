# Formal model of dholroyd/relaxng-rust in Lean 4

Abbreviations: V = relaxng-validator/src/lib.rs, M = relaxng-model/src/lib.rs.

## Layout

* `lean/Verif/Model/*`  executable model, function by function; every definition cites `/repo`.
* `lean/Verif/Spec/*`   small independent specifications (what a user means); no mention of ids, flags, stores,
  contexts or cells.
* `lean/Verif/Proof/*`  lemmas.
* `lean/Verif/Props/*`  the property theorems (named `Cnn_…`), each beside a concrete case that meets its hypotheses
  (namespace `Verif.Ex`); negative results are theorems too.
* `properties.jsonl` the claims, `MANIFEST.json` which theorem settles which claim, `seeded/LOG.jsonl` the mutation
  experiments.

## Trusted base

* Lean 4.33.0's kernel.  No axioms of our own, no compiled evaluation.  Theorems depend on at most `propext`,
  `Quot.sound` and `Classical.choice`; the table at the end lists the axioms of every theorem in the manifest.
* That the Lean model says what the Rust code does.  It was written by reading the code; nothing was run.
* The specifications in `Spec/`.
* Behaviour assumed of code outside the repository, always explicit:
  * `Ext` (Model/Datatype): user regular expressions, `BigDecimal` parsing and comparison, `f64` parsing and
    comparison, `chrono` dates, URI syntax and the `\d` class are arbitrary functions, nothing assumed.
  * crate bigdecimal compares and orders decimals by value (C79); its `Hash` agreeing with that is a hypothesis there.
  * `Files` (Model/Schema): the contents of files after parsing and `Path::parent().join()` are arbitrary functions.
  * std integer parsing and num-bigint parsing (optional sign, ASCII digits, range check) are modelled from their
    documentation (Model/Datatype); `char::from_u32` as the set of Unicode scalar values.
  * fixed regular expressions in the crate (duration, dateTime, language, …) are given their usual meaning by a small
    matcher (Model/Regex).
  * hash maps are association lists: only lookup and insertion are used by the code where results depend on them; where
    the code iterates over a hash map, it stops at the first offender, and which offender is reported is not claimed.
  * nom 8's combinators (`alt`, `opt`, `cut`, `tag`, `separated_list0/1`, `fold_many0`, `take_until`, `is_not`,
    `not_line_ending`, `all_consuming`) as functions on char lists (Model/Compact).
  * roxmltree: the tree it builds is the input of the XML reader's model; ranges of nodes lie within the text; error
    columns count from one.  fluent_uri's check of a library URI is an arbitrary function.  codemap's `subspan` asserts
    `begin <= end <= length`.  std::path on Unix (`parent`, `push`, `join`) is modelled from its source.
  * codemap 0.1.3: `line_span` asserts that the line exists, lines count from zero, a final line feed is followed by one
    more line.  xmlparser: rows of errors count from one; tokens are parts of the text (`TokensIn`).
    codemap_diagnostic's emitter does not panic if the ranges are ranges of whole characters (`Prints`).
  * Recursion depth and memory are unbounded; arithmetic is unbounded except where the code's own bounds matter (the
    2^16 pattern table, integer datatypes).

## What is modelled

| code | model | remarks |
|------|-------|---------|
| V `Schema`, `push`, smart constructors (76-243) | Model/Store | ids are `Nat` below the 2^16 limit, failure is `Fault.capacity` |
| V compile, derivatives, nullable (303-1199) | Model/Compile, Model/Deriv | recursion by fuel, `Fault.fuel` when exhausted |
| V `validate_*`, `ElementStack`, entities | Model/Validate, Model/Entities | tokens are the alphabet of `xmlparser::Token`; the tokenizer is not modelled, any token sequence is allowed |
| relaxng-model/src/model.rs | Model/Pattern, Model/NameClass | |
| datatype/{mod,relax,xsd}.rs | Model/Datatype, Model/Regex, Model/Lex | |
| `PartialEq`, `Hash` of the datatypes and of `Pat` | Model/Held | with compiled expressions and the digits of decimals; elsewhere these are replaced by what they mean, which C79 justifies |
| M `Context`, `Compiler` (96-1932) | Model/Schema, Model/Source | positions dropped; cells numbered |
| relaxng-syntax/src/types.rs | Model/Source | the syntax tree |
| relaxng-syntax/src/compact.rs, M `Syntax::parse` (48-89) | Model/Compact | positions and error values dropped; nom's combinators modelled from its documentation and source |
| relaxng-syntax/src/compact.rs (positions) | Model/CompactSpans | the same parsers with `location_offset`; positions that nothing reads left out |
| relaxng-syntax/src/compact.rs (errors), M 65-86 | Model/CompactErrors | the same parsers with the place of nom's errors (`here`: errors of `tag`, `satisfy`, `take_until`, `not`, `fold_many1` at their own input; `alt`: those of the last branch; `all_consuming`: at the rest) |
| relaxng-syntax/src/xml.rs (positions, errors), M 48-65 | Model/XmlSpans | begins at the tree of roxmltree with its ranges |
| M `dump_diagnostic`, `diagnostic` (763-1177), relaxng-tool with them | Model/SchemaDiag | format strings without most of their arguments; the offset at which nom gives up is a parameter, given by Model/CompactErrors in C72; the emitter of codemap_diagnostic is a parameter (assumed to print labels that are ranges of whole characters) |
| M `dump_diagnostic`, `diagnostic` for XML schemas | Model/XmlDiag | as Model/SchemaDiag; the words of the reader's errors as in Model/XmlSpans |
| V `validate`, `close_element_start`, `parse_entities` with positions | Model/Spans | spans are a start and the characters; rows and columns only in errors of the tokenizer |
| V `heads`, `head`, `describe_*`, `diagnostic` (1200-1455) | Model/Diagnostic | messages are constructors with their arguments; a hash set is a list in an order given by an arbitrary permutation |
| relaxng-tool/src/main.rs, M `diagnostic` (763-1177) | Model/Tool | which compile errors have a message; the emitter is an arbitrary function |
| relaxng-syntax/src/xml.rs, M `Syntax::parse` (48-65) | Model/XmlSyntax | begins at the tree built by roxmltree; positions and error values dropped |

Not modelled: message texts beyond their format strings, `Display`, the `xmlparser` tokenizer, `roxmltree`, file I/O,
the debugging printers (`dumpy`, `assert_health`), `check_choice(s)`.

* Strings are `List Char`; byte lengths are sums of `Char.utf8Size`.
* Interior mutability is a state monad; every panic (`panic!`, `unreachable!`, `unimplemented!`, index out of bounds,
  `unwrap` on None) is a distinct value (`Fault`, `SPanic`), so that its absence can be stated.
* Rust recursion over cyclic structures is recursion on a fuel argument.  Correctness theorems hold for every fuel that
  returns; termination theorems say that some fuel suffices.
* Datatypes are a parameter of the validator model (`Lib`); `stdLib` instantiates it with the crate's datatypes.

## Specifications

* `Spec/Grammar`: `Match`, the declarative matching relation of a schema pattern on attributes and nodes, one rule per
  pattern kind.  `Spec/Document`, `Spec/Framing`: documents, their tokens, and which token sequences a tokenizer emits.
* `Spec/WellFormed`: `SchemaOK`, the RELAX NG section 7 restrictions under which the validator is sound and complete.
* `Spec/Xml`, `Spec/Content`, `Spec/Memo`, `Spec/Edits`, `Spec/Reach`: character references, content models, edits of
  documents, reachable validator states.
* `Spec/Datatype`: lexical and value spaces.
* `Spec/Compact`: the compact syntax as a grammar, a relation between schemas and texts.
* `Spec/XmlSyntax`: the XML syntax as a relation between trees and schemas; which content is foreign; paths.
* `Spec/Source`: `SMatch`, the meaning of a *source* syntax tree over several files, with includes, overrides, nested
  grammars and externals; `Spec/Merge`: combining definitions; `Spec/Places`, `Spec/Faults`: every place of a schema,
  what has to hold there, and what can be wrong.

## Plan per property

| id | what is modelled | how it is proved |
|----|------------------|------------------|
| C01-C03, C22, C23, C48, C49 | compile, all derivatives, validate loop | derivative relations over the final store; store semantics; `Rep` relation between grammar and store; induction on documents |
| C04, C05 | push, smart constructors, all derivatives | invariants of the store |
| C06, C07 | same | typing relation `Ty` on the pattern graph; convergence for large fuel |
| C08, C21 | att_deriv, close_element_start | from C01/C02 and permutation invariance of the spec |
| C09 | text_deriv | from C01/C02 and whitespace-invariance of the spec |
| C10-C12, C15, C19, C47 | validate | direct, over all states |
| C13 | contains | structural induction against set semantics |
| C14 | ElementStack | scoping spec vs never-popped stack; counterexample and partial theorem |
| C16-C18 | parse_entities, numeric_entity, Text arm | decode spec; induction on text |
| C20 | att_deriv | memo vs memo-free relation |
| C24-C30, C50-C52 | datatype modules | induction on strings; interval/length arithmetic |
| C31 | both char tables | range tables equal, for all chars |
| C32 | merge, merge1 | induction and permutation |
| C33, C34 | check | induction on number of unseen definitions |
| C35-C41, C53-C57 | Context, include, define, flattening, the whole compiler | simulation of the compiler's cells by the definitions of `Spec/Source` (invariant `GoodS`), walks over all places |
| C42, C43, C58 | all of compact.rs (nom's combinators as functions on char lists) | a grammar in `Spec/Compact`; derivations by the grammar are read (induction on derivations), what is read is derived (induction on the budget), termination by length, panics by a closure property |
| C44 | rebase_path, std::path on Unix | induction on directories, equality with RFC 3986 merging |
| C59, C60, C63 | all of xml.rs on trees | exact equivalence of reader and relation by induction on the tree; invariance by induction on the difference |
| C61 | both readers and the compiler; Spec/Alike (saying the same), Spec/Translate (the document for a schema) | simulation of the compiler on two source trees related by AlikeSchema (Proof/Alike), independence of the budget (Proof/SchemaMore), the translation is read back as something alike (Proof/Translate) |
| C62 | error positions | arithmetic |
| C45 | main.rs, `diagnostic` of the compiler (which errors have a message) | case analysis of the run; C57 and C53 for what the outcome says of schema and documents; C07 and C38 for termination; C06 and C65 for panics |
| C46 | heads, head | the elements found are those of an inductive relation (`Offered`), by induction on the typed pattern graph; exact criterion for refusal from the start tag derivative; counterexamples to the full claim |
| C64 | validate once more, with positions (Model/Spans) | simulation of the model without positions; invariant about the element stack (`Blames`) |
| C67, C68 | the schema compiler once more, with positions and lengths of files (Model/SchemaSpans) | simulation of the model without positions (`Sim`); Hoare rules with an invariant of the compiler's state (`Sound`) for the errors; walk over all places for the converse |
| C69 | the compact parser once more, with the byte positions of nom_locate (Model/CompactSpans) | erasing the positions gives the parser of Model/Compact (relation `Er`, step by step); an invariant of every parser (`Post`: what it consumed and that all positions in its result show their source) |
| C70 | `Compiler::diagnostic` with labels and format strings, and the tool with it (Model/SchemaDiag) | case analysis over the errors, using C68 (where errors point) and C69 (what stands there); comparison with `Tool.run` case by case |
| C71 | the reader of the XML syntax once more, with the ranges of roxmltree and with its errors (Model/XmlSpans); that the ranges are those of the text is a hypothesis (`Depicts`) | erasing the positions gives the reader of Model/XmlSyntax; inversion of every reading function, both ways, against a specification of faults (Spec/XmlSpans `Fault`) and of where things stand (`Stands`) |
| C72 | the parser of the compact syntax once more, with the place of its errors (Model/CompactErrors) | erasing the places gives the parser of Model/Compact; a logic of triples (`V`: what a parser reads, and that what it has read when it gives up can be completed), rule by rule, induction over the recursion budget; the grammar of Spec/Compact says what a schema is |
| C73 | `Compiler::diagnostic` for schemas in the XML syntax, with the errors of their reader (Model/XmlDiag) | case analysis over the errors, using C68 (where errors point) and C71 (what stands there, and that refused documents have a fault there); C70 for the errors that are not of the parser |
| C74 | the loops over the parameters of the xsd types, the range and length facets with their conflicts and panics, the choice of the library (Model/Datatype) | each loop is a fold whose step is shown to do what the objections (Spec/Facets) say, under an invariant tying the facets collected so far to the parameters read; one generic lemma turns that into the outcome for every list |
| C75 | the public accessors of MinMaxFacet and StringFacets (Model/FacetApi); machine types by their least and greatest values, overflow is a panic (debug builds; release builds wrap) | the invariants of C74 say which parameter each stored bound comes from; every integer of the type has a numeral; the answer then follows for each kind of bound |
| C76 | the cache of loaded files in the compiler state (Model/Schema, `loaded`) | a Hoare-style rule "a successful run adds exactly the files S" composed through every compile function; S is the files named at the places inside (Spec/Places, Spec/Loaded). A failed compile is not covered: the model drops the state on errors |
| C77 | Spec/Viable (what "every part can be used" means, over `Match`), Proof/Live (live patterns: which compiled patterns can still be satisfied; preserved by all six derivative functions), LiveSat (live ⇒ satisfiable), LiveRep (compiled usable patterns are live), LiveRun (runs over open elements), LiveDoc/LiveCut (beginnings of documents), LiveSer/LiveFill (writing the missing content down, with fresh prefixes), LiveTop | Accepted beginnings are completed by constructing the rest of the document: the accepted residual pattern is live, so it has a content for every open element, which is written down as XML; soundness of open runs (as in C01) gives that the completed document matches. The error ⇔ not-completable form adds C03. Two witnesses (Props/ViableCases) show that the condition on the schema is needed. Completions write text as CDATA sections; that names and text are characters XML allows is not part of the document model (as everywhere). |
| C78 | push, all derivatives, validate | every computation of the validation phase is a program over push/patt (`Prog`): run again in a grown table it repeats its result and adds nothing; the schema `a*, a*`: an invariant of the table after k children |
| C79 | `PartialEq`/`Hash` of all datatypes, `PatternFacet`, decimals with digits and scale, `push` with keys compared by `PartialEq` (Model/Held) | by cases on the datatypes: comparing equal is having the same image under the map to Model/Datatype, and acceptance factors through that map if the expression of a pattern was compiled from its text; induction over the parameter loops for the latter |
| C80 | nothing new: the schema compiler and the validator as above; Spec/Refactor relates two versions of a schema (a bisimulation between the definitions of corresponding grammars) | match derivations of one version are turned into derivations of the other by induction on the size of the derivation and, within one size, on the relation (Proof/Refactor); C53, C01 and C02 carry this over to compiled schemas and validators. Corollaries for reordering, renaming, moving into an included file |
| C81 | nothing new: the schema compiler as above; Spec/Order says when two versions of the files differ only in order and grouping | meaning: derivations of one version are turned into derivations of the other (Proof/Order); compilation: faults and endless chains of one version are simulated in the other (Proof/OrderFaults), so that C57 (compiles iff no fault and not endless) carries over. Counterexamples show why parentheses around a whole file are excluded and that the reported fault depends on the order |
| C82 | nothing new: the validator as above; Spec/Split says where character data is broken and where a schema asks for nothing but text | the run follows the document in pieces (`Pieces`); the store's meaning is stated with two readings of dropped white space (`WeakP`), so that acceptance in pieces is sound and complete without assuming unbroken text; matching in pieces and matching joined are then shown to agree by replacing texts (`Sub`) in derivations of `Match`. A counterexample shows why data is excluded |
| C83 | nothing new: the validator as above; Spec/Seen says how any document is read (`Seen`), where `Resolves` says what it means | the decoding loop computes exactly `TextSeen` (Proof/Taken), names and attributes exactly `seenName` and `SeenAtts`; the token run follows the event run over the document as read, and a run without an error shows that the document can be read (Proof/Seen, by induction on the document); the verdict on the events is that of C82; `MostlyTame` documents are read as they mean |
| C84 | nothing new: the tool (Model/Tool), the compact parser, the compiler and the validator as above | C45 gives the exit status from the outcomes, C57 and C58 the outcome of the schema from its texts, C53 its meaning, C83 the verdict on each document (Props/SeenTool) |
| C85 | nothing new | the tool's run gives the token refused (C45); C77 says that what was accepted can be completed and what is refused cannot, C53 relates this to the schema as written, C64 says that the error is about that token (Props/Earliest) |
| C86 | nothing new | C58/C59 replace the texts by what they say, C53 gives the meaning, C83 the verdict (Props/SeenSource) |
| C87 | nothing new | concrete schemas and documents; the compiled schema and the verdict by evaluation in the kernel, the meaning by C53 and inversion of the matching relation (Props/Needed) |
| C88 | executable tests on compiled schemas (Spec/Check) | soundness of each test against the relations of Spec/WellFormed by structural induction on patterns inside induction on the depth of references; sets of definitions closed under mention for "does not use" (Proof/Check), then C06 and C86 (Props/Checked); exactness: completeness by induction on the relations with "from some depth on" (Proof/CheckExact), and the depth bounded by counting the rounds in which the growing answers to finitely many questions can change (Proof/CheckBound); the test for data: what stands in a used definition stands in the start pattern, except within exceptions, where no element can stand (Proof/CheckText) |
| C89 | the datatypes and values a schema mentions, and the test for those without a check (Spec/Sure) | a Hoare-style invariant through `compile` and all derivatives: every datatype in the store is one the schema mentions and the library answers for (Proof/Sure); then C07, C06 and C88 (Props/Sure); the test decided by C88's bound on the depth |
| C90 | the tool as in C45 | C45 (termination, panics explained), C84 (exit status), C89 (no abort for want of a datatype), C64 (no syntax error among tokens), C54 (Props/ToolJudges) |
| C91 | the model of C05 (`compile`, `push`) | Spec/Size (`weight`, `weights`: the patterns written); Proof/Size: a potential (patterns kept + what the open definitions still cost) that no compilation step increases beyond what is written; Proof/SizeLow: every name mentioned is a key of the memo afterwards, and the memo is no longer than the table; Props/Size combines them with C06, C07, C89, C90 |
| C92 | the model of C01 and C83 | Spec/Loosen (`Wider`: ways to loosen a pattern as a whole; `Looser`: anywhere in it; `Loosened`: in a schema and its definitions, which may be renumbered); Proof/Loosen: what matches still matches, by induction on the match; with C83, the verdict of the validator; Props/Loosen has the version with the tests of C88 |
| C93 | the model of C01 and C83 | Proof/Union: alternatives of well-formed schemas are well-formed; Props/Union: with C83 for the choice and for each alternative, the verdict of the one run from those of the others |
| C94 | the model of C01 and C83 | Spec/Swap (`Swapped`: some `x` replaced by `y`, at any depth; `Fits`: `y` matches every `element` of the schema that `x` does); Proof/Swap: by induction on the match, a matching document still matches; Props/Swap: with C83, the verdict of the validator |
| C95 | the model of C01 and C83 | Spec/Opaque (`Renaming`: bijections of URIs and local names; what they make of schemas, documents as written and documents as read); Proof/Opaque: matching and reading commute with a renaming, and the renaming back undoes it; Proof/OpaqueWF: so do the conditions on schemas; Props/Opaque: with C83 for both, the verdicts |
| C96 | the model of C01 and C83 | Spec/Prefix (`Change`: a bijection of prefixes; what it makes of a document as written); Proof/Prefix: reading does not notice it, and changing back undoes it; Props/Prefix: with C83 for both documents, the verdicts |
| C97 | the model of C01 and C83, any datatype library | Spec/Reword (`Asks`: the values, datatypes and lists in a schema; `Alike`: none of them tells two strings apart; `Reworded`: strings replaced, at any depth); Proof/Reword: by induction on the match, what matches still matches; Props/Reword: with C83 for both documents, the verdicts |
| C98 | the model of C01 and C83 | Spec/Mixed (`Mixes`: attributes and mixed content; `Edited`: character data edited in elements of a name; `MixedIn`); Proof/Mixed: where only text is asked for, character data can be stripped (`strip`); in mixed content only the elements count (`mixes_match`); then by induction on the match; Props/Mixed: with C83 for both documents, the verdict |
| C99 | the model of C01 and C83 | Spec/Described (`At`: what stands in a pattern outside attributes, elements and lists; `DescribedAttr`, `DescribedNodes`; `ElementIn`: an element at any depth); Proof/Described: by induction on the match (`match_both`); Props/Described: with C83, for what the validator accepts, and the two refusals that follow |
| C100 | the model of C01 and C83 | Spec/Required (`Demands`: what must match one of some patterns); Proof/Required: part of what matches it matches one of them (`required_there`); Props/Required: with C99, every occurrence of an element has what is required; and the refusals, with C83 |
| C101 | the model of C01 and C83 | Spec/Records (`Record`, `Repeated`, `Listing`, `Root`); Proof/Records: content matches iff it does without records and with each record alone (`listing_iff`, `root_iff`); Props/Records: with C83 for all the documents, splitting, filtering and merging, and what a refusal means |
| C102 | the model of C01 and C83 | Spec/AnyOrder (`Unordered`, `Permuted`, `UnorderedIn`); Proof/AnyOrder: unordered content matches in every order (`unordered_match`; `perm_shuffle`, `perm_weak`), then by induction on the match; Props/AnyOrder: with C83 for both documents, the verdict |
| C103 | the model of C01 and C83 | Spec/Wild (`Anything`, `Changed`, `AnythingIn`); Proof/Wild: by recursion on the nodes (`anything_match`), then by induction on the match; Props/Wild: with C83 the verdicts; with C88's test, that the open schema accepts every document |
| C65, C66 | diagnostic, describe_expected, codemap's line_span and subspan | C64 for the ranges, C46 for the names; lines of a text by induction |

## Deviations found (each a theorem)

* Validator: namespace declarations leak to following siblings, `xmlns=""` defaults are ignored and `xml:` is undeclared
  (C14 witnesses); a bare final `&` is dropped (C17); an entity whose replacement has the same length is left alone
  (C16); numeric references accept a leading `+` (C18); end of document is not checked against open elements (C47).
* For ambiguous content models (`a*, a*`) the number of patterns grows with the number of children, so that long valid
  documents panic; a record of every start tag is kept (C78).
* Without the section 7 restrictions: alias recursion aborts the process, unguarded mutual recursion diverges (C06, C07).
* Datatypes: duration accepts non-ISO forms (C30); some datatypes panic (C52).
* Schema compiler: `default namespace` is ignored (C40); cycles longer than one definition are accepted (C36); elements
  in attributes behind a reference are accepted (C37); some file graphs make it recurse forever (C38); override bodies
  know only `xml` and the inherited prefix (C39); files used by `external` lose their declarations, and `external`
  grammars resolve includes against the wrong file (C55).
* Compact syntax: a comment at the end of a file without line feed and some `>>` annotations panic; a quoted identifier
  keeps its backslash; names beginning with `string` or `token` cannot be referred to; operators may be mixed without
  parentheses and group to the right; `string - "a" | "b"` excludes both; empty files and annotated definitions are
  refused (C43, C58).
* Diagnostics: names behind an optional part are missing, names that may only come later are listed (C46); malformed
  character references are shown at a wrong place (C64); XML syntax errors are shown one line too late, or panic (C66).
* Positions in schemas: a grammar used by `external` that is longer than the file using it panics (C67); some errors point at
  the beginning of a file, and the original of a duplicate definition is called the duplicate (C68).
* Positions in XML schemas: an undefined prefix in `name` is reported at the tag, prefixed tags are cut off, wrong characters are
  shown a byte wide and from the beginning of the white space (C71).
* Tool: some schema errors panic because there is no message for them (C45).
* XML syntax: an ill-formed schema document always panics (C62); prefixed names in `name` elements are never resolved,
  attributes inherit `ns`, comments change values, `token` ignores its library (C63); a base path ending in `.` loses a
  directory (C44).

## Axioms of the theorems in the manifest

* none: `Ex.C40_unprefixed_names`
* propext: `C13_name_classes_are_sets`, `C24_words_joined`, `C24_keeps_characters`, `C31_same_characters`, `C42_every_string_has_a_literal`, `At.C70_one_primary`, `At.C70_include_labels`, `CheckEx.C88_case`, `CheckEx.C88_misjudged_schemas_refused`, `SureEx.C89_case`, `SureEx.C89_case_refused`, `SizeEx.C91_case`, `SizeEx.C91_case_close`, `C92_loosened_schemas_match`, `C93_alternatives_well_formed`, `C94_replacing_elements`, `C97_rewording_keeps_matching`, `C97_reworded_match_alike`, `C98_only_elements_count`, `C98_edited_documents_match`, `C99_matching_documents_described`, `C100_required_attributes`, `C100_required_elements`, `C102_any_order`, `C102_permuted_documents_match`
* Quot.sound, propext: `C04_identities_stable`, `C06_alias_recursion_aborts`, `C06_unframed_tokens_abort`, `C07_unguarded_recursion_diverges`, `C12_error_keeps_state`, `C16_same_length_entity_not_replaced`, `C18_decimal`, `C18_numerals_exist`, `C19_no_decoding`, `C20_cache_does_not_change_results`, `C20_cache_does_not_change_start_tags`, `C22_laws`, `C22_congruence`, `C24_words_unique`, `C31_same_names`, `C34_check_terminates`, `Ex.C34_case`, `C41_flattening`, `C42_literals_are_read`, `C42_what_is_read_is_a_literal`, `C44_relative_path`, `C44_absolute_path`, `C47_truncated_documents_accepted`, `C47_end_tag_names_ignored`, `ExV.C77_void_element_fails`, `C78_every_start_tag_is_kept`, `C88_checked_schemas_are_well_formed`, `SureEx.C89_unanswered_aborts`, `C101_judged_record_by_record`, `C103_anything_matches`, `C103_changed_documents_match`
* Classical.choice, Quot.sound, propext: `C01_accepted_documents_match`, `Ex.redeclared_ok`, `Ex.leaking_not_tame`, `C02_matching_documents_accepted`, `C02_matching_documents_accepted_total`, `C03_rejection_is_final`, `C04_identities_canonical`, `C04_identities_distinct`, `C05_pattern_limit`, `C05_full_table_aborts`, `C06_no_internal_panic`, `C07_building_terminates`, `C07_validation_terminates`, `C08_attribute_order`, `C09_whitespace_insignificant`, `C09_inserting_whitespace`, `C10_contentless_tokens_do_nothing`, `C10_removing_contentless_tokens`, `C11_empty_element_tags`, `C13_element_names`, `C13_attribute_names`, `C14_element_prefix_partial`, `C14_attribute_prefix_partial`, `C14_declaration_leaks_to_siblings`, `C14_default_namespace_ignored`, `C14_xml_prefix_undeclared`, `C15_namespaces_come_from_declarations`, `C15_undeclared_element_prefix`, `C15_undeclared_attribute_prefix`, `C16_references_replaced`, `C16_declared_entities_partial`, `C17_malformed_references_partial`, `C17_malformed_references_predefined_partial`, `C17_final_ampersand_dropped`, `C18_hexadecimal`, `C18_others_are_errors`, `C18_plus_sign_accepted`, `C19_cdata_same_as_text`, `C19_plain_text`, `C21_no_extra_attributes`, `C21_required_attributes_present`, `C21_attributes_used_once`, `C21_attribute_count`, `C22_equivalent_schemas_same_verdict`, `C23_references_mean_definitions`, `C23_start_reference`, `C24_words_exist`, `C24_idempotent`, `C24_result_is_tidy`, `C25_token_values`, `C25_string_values`, `C25_builtin_types`, `C25_xsd_string`, `C26_integer_types`, `C26_value_unique`, `C26_integer_accepts_underscores`, `C26_positiveInteger_accepts_zero`, `C26_byte_unsupported`, `C27_integer_range_facets`, `C27_integer_bounds_consistent`, `C27_integer_satisfiable_accepted`, `C27_integer_no_panic`, `C27_decimal_range_facets`, `C27_decimal_bounds_consistent`, `C27_decimal_satisfiable_accepted`, `C27_decimal_no_panic`, `C27_order_dependent`, `C27_repeated_facet_panics`, `C27_double_ignores_range`, `C28_accepted_iff`, `C28_string_lengths`, `C28_normalizedString_lengths`, `C28_contradiction_rejected`, `C28_maxLength_first_panics`, `C29_boolean`, `C29_ncname`, `C29_ncname_without_colon`, `C30_duration_accepts`, `C30_accepts_junk`, `C30_rejects_negative`, `C31_xml_trims`, `C32_definition_order_irrelevant`, `C32_definitions_accepted_iff`, `C32_combined_meaning`, `C33_no_dangling_references`, `C34_final_checks`, `C35_overrides_replace`, `C35_override_must_exist`, `C35_documents`, `Ex.C35_case`, `Ex.C35_missing_case`, `C36_self_reference_rejected`, `C36_self_reference_in_override_rejected`, `C36_error`, `Ex.C36_case`, `Ex.C36_longer_cycles_accepted`, `C37_element_in_attribute_rejected`, `C37_element_in_attribute_rejected_anywhere`, `Ex.C37_case`, `Ex.C37_through_reference_accepted`, `C38_recursive_include_rejected`, `C38_recursive_external_rejected`, `C38_error`, `C38_compilation_terminates`, `Ex.C38_case`, `Ex.C38_terminates_case`, `Ex.C38_external_grammar_cycle_diverges`, `Ex.C38_unboundedly_many_names_diverge`, `C38_terminates_unless_endless`, `C38_endless_schemas_never_compile`, `C38_endless_ways_use_grammars`, `C38_finite_schemas_are_not_endless`, `Ex.C38_case_endless`, `Ex.C38_case_external`, `C39_prefixes_declared`, `C39_datatype_prefixes_once`, `C39_duplicate_datatype_prefix`, `C39_first_namespace_declaration_wins`, `Ex.C39_case`, `Ex.C39_errors`, `C39_prefixes_known`, `Ex.C39_override_prefixes`, `C39_predeclared_prefixes`, `C40_default_namespace_ignored`, `Ex.C40_case`, `C42_value_pattern`, `Ex.C42_case`, `Ex.C42_case_read`, `Ex.C42_case_quote`, `C43_identifiers_are_read`, `C43_what_is_read_is_an_identifier`, `C43_keywords_are_no_identifiers`, `C43_element_names`, `C43_quoted_names_keep_the_backslash`, `C43_no_reference_begins_with_string`, `Ex.C43_case`, `C44_href`, `C44_plain_reference`, `Ex.C44_case`, `Ex.C44_base_dot`, `Ex.C44_url`, `C45_exit_codes`, `C45_exit_zero_iff`, `C45_exit_one_iff`, `C45_exit_two_iff`, `C45_exit_code_and_schema_faults`, `C45_refused_document_exits_two`, `C45_exit_zero_documents_match`, `C45_exit_two_some_document_does_not_match`, `C45_tool_terminates`, `C45_panics_explained`, `Ex.C45_case_documents`, `Ex.C45_case_schema`, `Ex.C45_case_schema_panics`, `Ex.C45_case_document_panics`, `Ex.C45_case_match`, `Ex.C45_case_no_match`, `Ex.C45_case_terminates`, `Ex.C45_case_panic_explained`, `Ex.C45_case_refused`, `C46_expected_elements_found`, `C46_name_refused_exactly`, `C46_accepted_names_are_listed_partial`, `C46_listed_names_are_accepted_partial`, `Ex.C46_names_missing`, `Ex.C46_names_wrong`, `Ex.C46_names_counted`, `Ex.C46_complete_case`, `Ex.C46_sound_case`, `C48_words_exist_unique`, `C48_list_in_element`, `C48_list_in_attribute`, `C49_except_in_element`, `C49_except_in_attribute`, `C50_language`, `C51_dateTime`, `C52_data_panics_iff`, `C52_value_panics_iff`, `C52_compile_value_panics_iff`, `C52_integer_value_panics`, `C53_compiled_schema_means_its_source`, `C53_accepted_documents_match_source`, `C53_matching_documents_accepted`, `Ex.compiled`, `Ex.C53_wellFormed`, `Ex.C53_case`, `C54_errors_are_explained`, `C54_faultless_schema_compiles`, `C54_panics`, `C54_internal_panics_unreachable`, `C54_undefined_prefix`, `C54_recursive_reference`, `C54_recursive_include`, `Ex.C54_cases`, `Ex.C55_external_declarations_ignored`, `Ex.C55_external_grammar_uses_callers_prefixes`, `Ex.C55_nested_grammar_start_unusable`, `Ex.C55_override_prefixes_unknown`, `C56_cache_has_no_effect`, `C56_only_contents_matter`, `Ex.C56_case`, `C57_compiled_schemas_are_faultless`, `C57_compiles_iff_faultless`, `C57_outcome_is_the_fault`, `C57_only_fault_is_reported`, `Ex.C57_case_good`, `Ex.C57_case_unused`, `C57_endless_schemas_diverge`, `Ex.C57_case_not_endless`, `C58_every_spelling_is_read`, `C58_what_is_read_is_a_spelling`, `C58_unambiguous`, `C58_parser_terminates`, `C58_budget_is_irrelevant`, `C58_no_panic`, `C58_texts_compile_as_schemas`, `C58_compiled_texts_mean_what_they_say`, `Ex.C58_case`, `Ex.C58_case_read`, `Ex.C58_case_no_panic`, `Ex.C58_case_comment_at_end`, `Ex.C58_case_follow_annotation`, `Ex.C58_case_reference`, `Ex.C58_case_string_minus`, `Ex.C58_case_operators`, `Ex.C58_case_except`, `Ex.C58_case_empty_file`, `Ex.C58_case_annotated_definition`, `Ex.C58_case_annotated_name`, `Ex.C58_case_missing_space`, `Ex.C58_case_loose`, `C59_every_spelling_is_read`, `C59_what_is_read_is_a_spelling`, `C59_unambiguous`, `C59_documents_compile_as_schemas`, `C59_compiled_documents_mean_what_they_say`, `Ex.C59_case`, `Ex.C59_case_read`, `C60_noise_is_ignored`, `Ex.C60_case`, `Ex.C60_case_read`, `C61_alike_files_compile_alike`, `C61_alike_files_agree`, `C61_both_syntaxes_agree`, `C61_translation_says_the_same`, `C61_texts_compile_like_their_translation`, `Ex.C61_case`, `Ex.C61_case_alike`, `Ex.C61_case_agree`, `Ex.C61_grammar_keyword`, `Ex.C61_grammar_keyword_parent`, `C62_ill_formed_schema_panics`, `C62_well_formed_schema`, `Ex.C62_case`, `Ex.C63_name_element_prefix`, `Ex.C63_name_element_prefix_refused`, `Ex.C63_attribute_inherits_namespace`, `Ex.C63_comment_in_value`, `Ex.C63_comment_splits_value`, `Ex.C63_token_ignores_library`, `Ex.C63_common_attributes_refused`, `Ex.C63_empty_parameter_refused`, `Ex.C63_wrong_attributes_accepted`, `Ex.C63_nested_except`, `C64_positions_change_nothing`, `C64_errors_are_about_their_item`, `C64_ranges_show_the_fault`, `C64_ranges_lie_in_the_text`, `C64_character_references_misplaced`, `Ex.C64_case`, `Ex.C64_number_case`, `C65_errors_are_diagnosed`, `Ex.C65_case`, `C66_syntax_errors`, `Ex.C66_case`, `At.C67_positions_change_nothing`, `At.C67_compiles_iff`, `At.C67_positions_do_not_matter`, `At.C67_no_position_panics`, `At.C67_external_grammar_panics`, `At.Ex.C67_case_external_grammar`, `At.Ex.C67_case_panics`, `At.Ex.C67_case_own`, `At.C68_errors_point_at_the_fault`, `At.Ex.C68_case_prefix`, `At.Ex.C68_case_blames`, `At.Ex.C68_case_duplicate_swapped`, `At.Ex.C68_case_undefined`, `At.C69_same_tree`, `At.C69_positions_show_the_source`, `At.C69_marks_are_read`, `At.C69_positions_lie_in_their_file`, `At.C69_texts_compile`, `At.C69_no_position_panics`, `At.C69_shown_is_read`, `At.C69_undefined_prefix_is_quoted`, `At.C69_included_prefix_is_quoted`, `At.C69_recursion_is_quoted`, `At.C69_element_in_attribute_is_quoted`, `At.Ex.C69_case_positions`, `At.Ex.C69_case_reads`, `At.Ex.C69_case_wrong_file`, `At.Ex.C69_case_quoted`, `At.Ex.C69_case_recursion`, `At.C70_panics_iff`, `At.C70_diagnostics_point_at_the_fault`, `At.Explains.quotes`, `At.C70_tool_agrees`, `At.C70_tool_exact`, `At.Ex.C70_case_prefix`, `At.Ex.C70_case_facet`, `At.Ex.C70_case_unreadable`, `At.Ex.C70_case_override`, `At.Ex.C70_case_duplicate`, `At.Ex.C70_case_speechless`, `At.Ex.C70_case_panics`, `At.Ex.C70_case_broken_character`, `At.Ex.C70_case_explains`, `At.Ex.C70_case_tool`, `RngAt.C71_same_tree`, `RngAt.C71_errors_name_faults`, `RngAt.C71_read_iff_no_fault`, `RngAt.C71_schemas_have_no_fault`, `RngAt.C71_faultless_is_schema`, `RngAt.C71_positions_stand`, `RngAt.C71_positions_show_the_source`, `RngAt.C71_error_positions_in_file`, `RngAt.C71_well_formed_never_panics`, `RngAt.C71_ill_formed_panics`, `RngAt.C71_errors_show_a_piece`, `RngAt.C71_wrong_character_is_shown`, `RngAt.C71_unknown_prefix_is_shown`, `RngAt.C71_marks_stand`, `RngAt.C71_positions_lie_in_their_file`, `RngAt.C71_documents_compile`, `RngAt.C71_no_position_panics`, `RngAt.C71_undefined_prefix_is_misplaced`, `RngAt.C71_marks_are_shown`, `RngAt.C71_recursion_is_quoted`, `RngAt.C71_element_in_attribute_is_quoted`, `RngAt.C71_prefixed_tag_is_not_shown`, `RngAt.Ex.C71_case_positions`, `RngAt.Ex.C71_case_stands`, `RngAt.Ex.C71_case_shows`, `RngAt.Ex.C71_case_faults`, `RngAt.Ex.C71_case_fault`, `RngAt.Ex.C71_case_wide`, `RngAt.Ex.C71_case_piece`, `RngAt.Ex.C71_case_failures`, `RngAt.Ex.C71_case_misplaced`, `RngAt.Ex.C71_case_recursion`, `RngAt.Ex.C71_case_in_attribute`, `RngAt.Ex.C71_case_tagged`, `ECompact.C72_same_outcome`, `ECompact.C72_right_up_to_the_error`, `ECompact.C72_fault_is_not_before`, `ECompact.C72_gives_up_iff`, `ECompact.C72_gives_up_inside`, `ECompact.C72_syntax_diagnostic`, `ECompact.C72_tool_exact`, `ECompact.Ex.C72_case_places`, `ECompact.Ex.C72_case_earlier`, `ECompact.Ex.C72_case_right`, `ECompact.Ex.C72_case_fault`, `ECompact.Ex.C72_case_diagnostic`, `ECompact.Ex.C72_case_syntax_diagnostic`, `RngAt.C73_panics_iff`, `RngAt.C73_one_primary`, `RngAt.C73_include_labels`, `RngAt.C73_diagnostics_point_at_the_fault`, `RngAt.XExplains.quotes`, `RngAt.C73_errors_are_printed`, `RngAt.C71_ill_formed_panics`, `RngAt.Ex.C73_case_refused`, `RngAt.Ex.C73_case_explains`, `RngAt.Ex.C73_case_messages`, `C74_parameters`, `C74_supported_types`, `C74_supported_iff`, `C74_one_outcome`, `C74_double_bounds_are_finite`, `C74_other_libraries`, `C75_integer_min`, `C75_integer_max`, `C75_integer_reports`, `C75_integer_range`, `C75_strings`, `C75_string_lengths`, `C75_decimals`, `C75_decimal_exclusive_misreported`, `C76_loaded_files`, `C76_new_compiler`, `C76_used_files_load`, `C76_again_loads_nothing`, `C76_with_positions`, `C77_accepted_beginnings_can_be_completed`, `C77_error_iff_not_completable`, `ExV.C77_repeated_attributes_fail`, `C78_reading_again_keeps_no_more_patterns`, `C78_repetitions_keep_no_more_patterns`, `C78_long_documents_exceed_the_limit`, `Held.C79_equal_datatypes_accept_the_same`, `Held.C79_equality_as_modelled`, `Held.C79_equality_is_an_equivalence`, `Held.C79_equal_datatypes_hash_alike`, `Held.C79_held_accepts_as_modelled`, `Held.C79_compiled_datatypes_are_held`, `Held.C79_table_as_modelled`, `Held.C79_equality_is_finer_than_acceptance`, `Refac.C80_refactored_schemas_mean_the_same`, `Refac.C80_validators_agree`, `Refac.C80_moving_and_renaming_refactors`, `Refac.C80_moving_and_renaming`, `Refac.C80_reordering`, `Refac.C80_moving_to_an_included_file`, `Refac.Ex.C80_refactored`, `Refac.Ex.C80_case`, `Refac.Ex.C80_wellFormed`, `Refac.Ex.C80_cases`, `Order.C81_compiles_in_any_order`, `Order.C81_same_meaning_in_any_order`, `Order.C81_validators_agree`, `Order.C81_endless_in_any_order`, `Order.C81_same_faults`, `Order.Ex.C81_reported_fault_depends_on_order`, `Order.Ex.C81_parenthesized_grammar_not_included`, `C82_accepted_documents_match`, `C82_matching_documents_accepted`, `C82_rejection_is_final`, `C82_breaks_make_no_difference`, `SplitEx.C82_condition_needed`, `C83_accepted_iff`, `C83_accepted_documents_match`, `C83_documents_matching_as_read_accepted`, `C83_read_in_one_way`, `C83_accepted_documents_can_be_read`, `C83_rejection_is_final`, `C83_usual_documents_read_as_they_mean`, `C83_usual_documents_break_alike`, `SeenEx.C83_differences_matter`, `SeenEx.C83_undeclared_prefix_never_accepted`, `C84_exit_zero_means`, `C84_exit_two_means`, `C84_exit_status`, `C84_exit_status_texts`, `SeenToolEx.C84_case`, `SeenToolEx.C84_case_both`, `C85_stops_at_the_first_hopeless_token`, `EarliestEx.C85_case`, `C86_accepted_iff`, `C86_accepted_iff_compact`, `C86_accepted_iff_xml`, `SeenSourceEx.C86_case`, `SeenSourceEx.C86_case_both`, `Needed.C87_start_no_choice_of_elements`, `Needed.C87_start_only`, `Needed.C87_attribute_in_repeated_group`, `Needed.C87_repeated_only`, `Needed.C87_interleaved_list`, `Needed.C87_list_in_list`, `Needed.C87_recursive_repetition`, `Needed.C87_recursive_repetition_is_legal`, `C88_test_decides`, `C88_alias_test_decides`, `C88_no_need_to_look_further`, `C88_checked_schemas_never_panic`, `C88_accepted_iff`, `C88_accepted_iff_compact`, `C88_accepted_iff_xml`, `CheckEx.C88_case_decided`, `CheckEx.C88_case_applied`, `C88_text_test_decides`, `CheckEx.C88_case_text`, `C89_only_the_limit_aborts`, `C89_ends`, `C89_answers_iff`, `C89_test_decides`, `C89_checked_schemas_never_panic`, `C89_every_document_is_judged`, `C89_every_document_is_judged_compact`, `C89_every_document_is_judged_xml`, `SureEx.C89_case_applied`, `C90_tool_judges`, `C90_tool_judges_texts`, `ToolJudgesEx.C90_case`, `C91_small_schemas_fit`, `C91_small_schemas_have_validators`, `C91_small_schemas_judge`, `C91_tool_not_hindered`, `C91_names_are_kept`, `C91_large_schemas_abort`, `SizeEx.C91_case_applied`, `SizeEx.C91_case_large`, `SizeEx.C91_case_large_aborts`, `C92_accepted_stays_accepted`, `C92_refused_was_refused`, `C92_checked`, `C93_accepted_iff_accepted_by_one`, `C93_order_and_repetition`, `C94_accepted_stays_accepted`, `C94_exchanging_elements`, `C95_same_matches`, `C95_well_formed_alike`, `C95_read_alike`, `C95_same_verdict`, `C95_checked`, `C96_read_the_same`, `C96_same_verdict`, `C97_same_verdict`, `C98_accepted_stays_accepted`, `C99_accepted_documents_described`, `C99_unknown_elements_refused`, `C99_unknown_attributes_refused`, `C100_missing_attribute_refused`, `C100_missing_element_refused`, `C101_split_filtered_merged`, `C101_one_is_to_blame`, `C102_accepted_stays_accepted`, `C103_accepted_stays_accepted`, `WildEx.C103_open_schema_accepts_everything`

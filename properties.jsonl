{"id": "C01", "title": "Acceptance is sound", "statement": "If a Validator built from a compiled schema reads every token of a document with a single root element and reports no error, then that document is valid against the schema in the sense of the declarative RELAX NG matching relation (whitespace-only text may be ignored in any element's content; attributes form a set; refs mean their definitions).", "quantifier": "every schema pattern grammar (recursive ones included), every element tree, every serialisation of it into tokens", "why_tests_cant": "the set of (schema, document) pairs is infinite and the derivative algorithm creates new patterns at each step; a test only exercises one derivation", "anchors": ["relaxng-validator/src/lib.rs: Validator::validate, text_deriv, start_tag_open_deriv, att_deriv, start_tag_close_deriv, end_tag_deriv"]}
{"id": "C02", "title": "Acceptance is complete", "statement": "If a document is valid against the schema (declarative relation), the Validator reports no error for any of its tokens, whatever the depth, width, number of attributes or recursion in the schema.", "quantifier": "every schema meeting the RELAX NG restrictions, every valid element tree and serialisation", "why_tests_cant": "false rejections appear only for particular combinations of repetition, interleave, nullability and recursion", "anchors": ["relaxng-validator/src/lib.rs: Validator::validate, Pat::is_nullable, Schema::{choice,group,interleave,after,one_or_more}"]}
{"id": "C03", "title": "A rejection is final", "statement": "Once the Validator reports that a token is not allowed, no continuation of the document could have made it valid: there is no valid document having the tokens read so far as a prefix.", "quantifier": "every schema, every document prefix ending in the rejected token, every continuation", "why_tests_cant": "quantifies over all continuations of a prefix", "anchors": ["relaxng-validator/src/lib.rs: Validator::validate, close_element_start"]}
{"id": "C04", "title": "Pattern identities are stable and canonical", "statement": "During validation an identity handed out for a pattern keeps denoting that same pattern for ever, and constructing a structurally equal pattern again yields the same identity.", "quantifier": "every sequence of pattern constructions and validation steps", "why_tests_cant": "needs an invariant over unbounded histories of the hash-consing table", "anchors": ["relaxng-validator/src/lib.rs: Schema::push, Schema::patt, Inner.memo"]}
{"id": "C05", "title": "The 2^16 pattern limit is enforced, never wrapped", "statement": "The pattern table never holds more than 65536 patterns, an identity always fits the 16-bit index without truncation, and the attempt to go past the limit is a panic, not a silent alias with an older pattern.", "quantifier": "every sequence of constructions of any length", "why_tests_cant": "reaching the boundary needs 65536 distinct patterns and every path to it", "anchors": ["relaxng-validator/src/lib.rs: Schema::push, PatId"]}
{"id": "C06", "title": "No internal panic while validating", "statement": "Validating any token sequence a well-formed XML document can produce against a well-formed compiled schema never hits an internal panic (placeholder reached, apply_after on a wrong pattern, index out of bounds, empty element stack); the only possible abort is the documented pattern limit.", "quantifier": "every well-formed grammar, every document", "why_tests_cant": "each panic site is reachable only through particular pattern shapes", "anchors": ["relaxng-validator/src/lib.rs: apply_after, text_deriv, start_tag_open_deriv, ElementStack::current_element"]}
{"id": "C07", "title": "Validation of each token terminates", "statement": "For a schema whose recursion always passes through an element, processing any token finishes (no unbounded recursion), and so does building the Validator.", "quantifier": "every guarded grammar, every token, every state reachable", "why_tests_cant": "non-termination cannot be observed by a finite test and depends on cyclic references", "anchors": ["relaxng-validator/src/lib.rs: Validator::compile, text_deriv, start_tag_open_deriv"]}
{"id": "C08", "title": "Attribute order is irrelevant", "statement": "Reordering the attributes of a start tag never changes whether the document is accepted.", "quantifier": "every schema, every document, every permutation of an element's attributes", "why_tests_cant": "number of permutations and schema shapes is unbounded", "anchors": ["relaxng-validator/src/lib.rs: att_deriv, close_element_start"]}
{"id": "C09", "title": "Whitespace between elements is insignificant", "statement": "For schemas without data, value or list patterns, inserting or removing whitespace-only text between child elements does not change acceptance.", "quantifier": "every such schema, document and insertion of whitespace-only text", "why_tests_cant": "all positions and documents", "anchors": ["relaxng-validator/src/lib.rs: text_deriv (Pat::Empty, Pat::Element arms)"]}
{"id": "C10", "title": "Comments, processing instructions and declarations are no-ops", "statement": "Comment, processing-instruction, XML-declaration and DTD start/end tokens never produce an error and leave the validator's observable state unchanged, so deleting them from the token stream changes no later verdict.", "quantifier": "every validator state, every token stream", "why_tests_cant": "all interleavings of such tokens with the rest", "anchors": ["relaxng-validator/src/lib.rs: Validator::validate"]}
{"id": "C11", "title": "Empty-element tag equals start+end tag", "statement": "<a .../> and <a ...></a> give the same verdict and leave the validator in the same state.", "quantifier": "every state, every element name and attributes", "why_tests_cant": "all states", "anchors": ["relaxng-validator/src/lib.rs: Validator::validate (ElementEnd::Empty, ElementEnd::Open, ElementEnd::Close)"]}
{"id": "C12", "title": "A not-allowed error leaves the expected content unchanged", "statement": "When a token is rejected, the pattern the validator is at (and hence the diagnostics and the verdicts on a replacement token) is the one from before that token.", "quantifier": "every state and rejected token", "why_tests_cant": "all states", "anchors": ["relaxng-validator/src/lib.rs: Validator::validate"]}
{"id": "C13", "title": "Name classes denote sets of names", "statement": "Named, ns:*, * , `|` and `-` (except) name classes accept exactly the expanded names their set-theoretic reading says, with an absent namespace equal to the empty namespace URI.", "quantifier": "every name class of any nesting, every name", "why_tests_cant": "infinitely many names and nestings", "anchors": ["relaxng-validator/src/lib.rs: contains, is_ns_match"]}
{"id": "C14", "title": "Namespace prefixes resolve to the nearest declaration in scope", "statement": "An element's or attribute's prefix resolves to the nearest enclosing xmlns:prefix declaration (including the element itself), and unprefixed attributes are in no namespace.", "quantifier": "every document tree with declarations at any depth", "why_tests_cant": "scoping depends on arbitrary nesting and siblings", "anchors": ["relaxng-validator/src/lib.rs: ElementStack::{lookup_namespace_uri,current_element,current_attributes,add_attr}"]}
{"id": "C15", "title": "Undeclared prefixes are always reported", "statement": "A start tag using a prefix with no declaration in the document so far is always rejected with an undefined-prefix error; a name is never matched under a made-up namespace.", "quantifier": "every schema, every element stack", "why_tests_cant": "all stacks and prefixes", "anchors": ["relaxng-validator/src/lib.rs: ElementStack::try_lookup_namespace_uri"]}
{"id": "C16", "title": "Entity references in text are replaced by their meaning", "statement": "Text containing predefined entities and character references is validated as the text with each reference replaced by the character(s) it denotes.", "quantifier": "every text chunk with any number of references", "why_tests_cant": "all texts; length coincidences trigger the special path", "anchors": ["relaxng-validator/src/lib.rs: Validator::validate (Token::Text), parse_entities"]}
{"id": "C17", "title": "Malformed or undefined references are always errors", "statement": "An '&' without a following ';', an undefined entity name, and a character reference that is empty, non-numeric, overflowing or not a Unicode scalar value always give an error and never reach the schema.", "quantifier": "every text chunk", "why_tests_cant": "all texts", "anchors": ["relaxng-validator/src/lib.rs: parse_entities, numeric_entity"]}
{"id": "C18", "title": "Numeric character references decode exactly", "statement": "&#N; and &#xH; decode to exactly the scalar value written, for every Unicode scalar value; every other content between '&#' and ';' is an error, except that one leading '+' before the digits is tolerated by the code (XML does not allow it) and read as the number after it.", "quantifier": "all scalar values, all digit strings", "why_tests_cant": "about 1.1 million scalars times digit spellings of any length", "anchors": ["relaxng-validator/src/lib.rs: numeric_entity"]}
{"id": "C19", "title": "CDATA is raw text", "statement": "A CDATA section is validated as literal text with no reference decoding, with the same verdict as ordinary text with the same decoded content.", "quantifier": "every state and CDATA content", "why_tests_cant": "all contents and states", "anchors": ["relaxng-validator/src/lib.rs: Validator::validate (Token::Cdata)"]}
{"id": "C20", "title": "Attribute-derivative memoisation does not change results", "statement": "Caching attribute derivatives by pattern identity within one attribute gives the same result as recomputing them.", "quantifier": "every store, every pattern identity, every attribute", "why_tests_cant": "depends on sharing in the pattern graph", "anchors": ["relaxng-validator/src/lib.rs: att_deriv"]}
{"id": "C21", "title": "Duplicate consumption of attributes is impossible", "statement": "One attribute of the document can satisfy at most one occurrence of a non-repeated attribute pattern, and required attributes must be present; extra attributes are rejected.", "quantifier": "every schema and attribute list", "why_tests_cant": "all combinations", "anchors": ["relaxng-validator/src/lib.rs: att_deriv, start_tag_close_deriv"]}
{"id": "C22", "title": "Schema algebra holds", "statement": "p|q and q|p, p&q and q&p, p? and p|empty, p* and p+|empty, mixed{p} and p&text, (p,q),r and p,(q,r), and notAllowed/empty simplifications accept the same documents.", "quantifier": "all patterns p,q,r, all documents", "why_tests_cant": "all patterns", "anchors": ["relaxng-validator/src/lib.rs: Validator::compile, Schema::{choice,interleave,group,mixed}"]}
{"id": "C23", "title": "References mean their definitions", "statement": "A reference compiled through a placeholder accepts exactly what its definition accepts, including recursive and mutually recursive definitions and regardless of the order in which references are met.", "quantifier": "every grammar, every reference graph", "why_tests_cant": "cyclic graphs and orders of traversal", "anchors": ["relaxng-validator/src/lib.rs: Validator::compile (Ref), Schema::{ref_placeholder,resolve_ref,get_ref}"]}
{"id": "C24", "title": "token whitespace normalisation", "statement": "The whitespace normaliser collapses every run of whitespace to one space, trims both ends, keeps all other characters in order, and is idempotent.", "quantifier": "every string", "why_tests_cant": "all strings", "anchors": ["relaxng-model/src/datatype/relax.rs: normalize_whitespace"]}
{"id": "C25", "title": "Built-in datatypes compare as specified", "statement": "A token value matches exactly the strings equal to it up to whitespace normalisation; a string value matches exactly the identical string; built-in string and token types accept every string.", "quantifier": "all pairs of strings", "why_tests_cant": "all pairs", "anchors": ["relaxng-model/src/datatype/relax.rs: BuiltinDatatypeValue::is_valid, BuiltinDatatype::is_valid"]}
{"id": "C26", "title": "Integer datatypes accept exactly their value range", "statement": "xsd short, int, long, unsignedShort, unsignedInt, unsignedLong accept exactly the decimal numerals (optional sign as the type allows) whose value lies in the type's range; integer and positiveInteger accept exactly the big-number library's numerals (underscores between digits allowed) with any value, respectively any value from 0 up (zero included, unlike XML Schema); byte is reported as unsupported when the schema is compiled.", "quantifier": "all strings, all lengths", "why_tests_cant": "digit strings of any length and both sides of every bound", "anchors": ["relaxng-model/src/datatype/xsd.rs: XsdDatatypes::is_valid"]}
{"id": "C27", "title": "Numeric range facets bound values exactly", "statement": "For the integer types and decimal, minInclusive/maxInclusive/minExclusive/maxExclusive accept exactly the values in the stated interval (with the last pattern); an accepted type has at most one lower and one upper bound, the lower not above the upper; any satisfiable set of at most one lower and one upper bound is accepted, in any order; no set without repeated facets panics. (Findings: whether an empty interval with equal bounds is reported depends on the order; a repeated facet panics; double ignores its range facets.)", "quantifier": "all bounds, all values, all orders of facet declaration", "why_tests_cant": "all triples", "anchors": ["relaxng-model/src/datatype/xsd.rs: MinFacet, MaxFacet, MinMaxFacet"]}
{"id": "C28", "title": "Length facets bound lengths exactly", "statement": "length, minLength and maxLength accept exactly the strings with that length (in characters), normalizedString after collapsing white space; exactly the combinations none, one facet, minLength then maxLength (in order and not contradictory) compile. (Finding: maxLength before minLength panics.)", "quantifier": "all strings and limits", "why_tests_cant": "all triples", "anchors": ["relaxng-model/src/datatype/xsd.rs: LengthFacet, StringFacets"]}
{"id": "C29", "title": "Boolean, NCName and pattern-restricted types", "statement": "xsd:boolean accepts exactly its four literals; NCName accepts exactly strings that start with a name-start character and continue with name characters without ':'.", "quantifier": "all strings", "why_tests_cant": "all strings", "anchors": ["relaxng-model/src/datatype/xsd.rs: XsdDatatypes::is_valid, is_valid_ncname"]}
{"id": "C30", "title": "What duration accepts", "statement": "xsd:duration accepts exactly the strings that begin with P (whatever follows) or end with a compact time stamp, because the anchors bind to one alternative each; the expected statement (only -?PnYnMnDTnHnMnS) fails: 'Please' is accepted and '-P1Y' is not.", "quantifier": "all strings", "why_tests_cant": "all strings", "anchors": ["relaxng-model/src/datatype/xsd.rs: DURATION_RE"]}
{"id": "C31", "title": "The two schema syntaxes agree on names", "statement": "The compact and XML schema readers accept exactly the same characters in NCNames, those of XML 1.0 5th edition without ':', and, for strings without surrounding white space, exactly the same names; the XML reader also ignores white space around a name.", "quantifier": "all characters", "why_tests_cant": "1.1 million characters", "anchors": ["relaxng-syntax/src/compact.rs: is_nc_name_start_char,is_nc_name_char; relaxng-syntax/src/xml.rs: is_nc_name_start_char,is_nc_name_char"]}
{"id": "C32", "title": "Combining definitions is order-independent", "statement": "Definitions of one name combined with |= (or &=) merge into one definition containing all alternatives (operands), whatever the order they appear in, with at most one plain = definition; conflicting combinators or two plain definitions are reported as errors.", "quantifier": "all lists of definitions, all permutations", "why_tests_cant": "all permutations of definition lists", "anchors": ["relaxng-model/src/lib.rs: Compiler::merge, merge1, append_choice, append_interleave"]}
{"id": "C33", "title": "A successfully compiled schema has no dangling references", "statement": "If schema compilation succeeds, every reference reachable from start (through any number of definitions) has a definition, so building a Validator cannot hit the missing-definition panic.", "quantifier": "every schema, every reference graph", "why_tests_cant": "all reference graphs", "anchors": ["relaxng-model/src/lib.rs: Compiler::compile, Compiler::check"]}
{"id": "C34", "title": "The reference check terminates on cyclic schemas", "statement": "Checking references visits each definition at most once and terminates on every reference graph, and reports the first undefined reference if there is one reachable.", "quantifier": "every finite reference graph", "why_tests_cant": "cyclic graphs", "anchors": ["relaxng-model/src/lib.rs: Compiler::check"]}
{"id": "C35", "title": "Include overrides replace exactly the overridden definitions", "statement": "Including a grammar with an override block behaves as the included grammar with exactly the overridden definitions (and start) replaced; overriding something the included grammar does not define is an error.", "quantifier": "every included definition list and override list", "why_tests_cant": "all lists", "anchors": ["relaxng-model/src/lib.rs: Compiler::compile_include, Context::define"]}
{"id": "C36", "title": "A definition that refers directly to itself is rejected", "statement": "A definition (or override) whose body mentions its own name with no element, nested grammar or file boundary in between keeps the schema from compiling, wherever it stands; the error names the definition. Cycles through two or more definitions are not detected by the compiler (shown as a negative result).", "quantifier": "every set of files, every place of the schema, every body", "why_tests_cant": "cycle shapes", "anchors": ["relaxng-model/src/lib.rs: Context::check_ref_recursion"]}
{"id": "C37", "title": "Elements inside attributes are rejected", "statement": "A schema in which an attribute's content contains an element, at any depth short of a reference or nested grammar (files used by `external` included), does not compile. Elements reached through a reference are not detected (negative result).", "quantifier": "every set of files and every place of the schema", "why_tests_cant": "all nestings", "anchors": ["relaxng-model/src/lib.rs: compile_element, Context::parent_attribute"]}
{"id": "C38", "title": "Include recursion is detected and compilation terminates", "statement": "An `include` or pattern `external` of a file already being included keeps the schema from compiling with a RecursiveInclude error naming it. Compiling terminates on every schema unless there is an endless way into it (opening no file that is open already); with finitely many loadable file names, such a way uses grammars by `external` over and over again, so include cycles alone never keep it from ending. An endless schema never compiles. Negative results: a grammar file using itself by `external` is not detected and recursion never ends; neither does an include chain whose path names keep growing.", "quantifier": "every set of files, every include chain and cycle", "why_tests_cant": "all chains", "anchors": ["relaxng-model/src/lib.rs: Context::check_include"]}
{"id": "C39", "title": "Namespace and datatype prefix declarations in schemas", "statement": "In a schema that compiles every namespace prefix, datatype prefix and inherited prefix is declared where it is used; a datatype prefix declared twice (or a redeclared xsd) is an error; the first declaration of a namespace prefix wins; xml and xsd are predeclared.", "quantifier": "all declaration lists", "why_tests_cant": "all declaration lists", "anchors": ["relaxng-model/src/lib.rs: Context::{declare_namespace,namespace_uri_for_prefix,declare_datatype,datatype_uri_for_prefix}"]}
{"id": "C40", "title": "`default namespace` declarations are ignored", "statement": "A `default namespace = \"\u2026\"` declaration should give unprefixed element names that namespace; it does not: removing every such declaration from every file of a schema leaves the compiled schema, or the error, unchanged, and unprefixed element names are in no namespace.", "quantifier": "every set of files", "why_tests_cant": "all schemas", "anchors": ["relaxng-model/src/lib.rs: compile_nameclass, compile_declaration"]}
{"id": "C41", "title": "Choice, group and interleave flattening preserves meaning", "statement": "Flattening nested binary choice/group/interleave syntax into n-ary patterns keeps operands in order and accepts the same documents as the nested form.", "quantifier": "all nestings", "why_tests_cant": "all nestings", "anchors": ["relaxng-model/src/lib.rs: compile_sequence, compile_interleave, compile_choice; relaxng-validator/src/lib.rs: Validator::compile"]}
{"id": "C42", "title": "Compact-syntax literals", "statement": "Concatenated literal segments denote the concatenation of the segment texts; each quoting form ends at its own terminator and its content is preserved.", "quantifier": "all literals", "why_tests_cant": "all literals", "anchors": ["relaxng-syntax/src/compact.rs: literal, literal_segment; relaxng-syntax/src/types.rs: Literal::as_string_value"]}
{"id": "C43", "title": "Keywords are never identifiers, everything else is", "statement": "Where an identifier is expected, an NCName that is not a keyword is read as one, in full, and a keyword is never read as one unless quoted with a backslash.", "quantifier": "all strings, whatever follows them", "why_tests_cant": "all names, including those with a keyword as prefix", "anchors": ["relaxng-syntax/src/compact.rs: identifier, keyword, datatype_name"]}
{"id": "C44", "title": "Relative references to files", "statement": "The path of an included or external file is found as RFC 3986 says: an absolute reference stands for itself, a relative one replaces the last segment of the base path given by the xml:base attributes around it (nearest first, each resolved against the next), or of the path of the file it stands in.", "quantifier": "all contexts, base paths and references made of proper path segments", "why_tests_cant": "all nestings of xml:base and all paths", "anchors": ["relaxng-syntax/src/xml.rs: rebase_path, resolve", "relaxng-model/src/lib.rs: compile_include, compile_external"]}
{"id": "C45", "title": "Tool exit status", "statement": "The tool's exit status is 0, 1 or 2. It is 0 exactly if the schema compiles and every item of every document is accepted by a new validator; 1 exactly if compiling the schema ends with an error there is a message for; 2 exactly if some document, after accepted ones, is refused at some item and the diagnostic of the error is printed. For well-formed schemas, documents whose run ends with 0 match the schema as written, and with 2 some document does not. It always ends, and every panic is explained by the schema, a file that cannot be read, the pattern limit, the datatype library, an XML syntax error or a malformed character reference.", "quantifier": "all schema files, directories, lists of documents and token sequences", "why_tests_cant": "all lists of documents and all event lists", "anchors": ["relaxng-tool/src/main.rs: main, validate", "relaxng-model/src/lib.rs: dump_diagnostic, diagnostic"]}
{"id": "C46", "title": "Diagnostics list the names that are possible", "statement": "The element names listed as expected after a rejection are exactly those of the elements that could come next (when there are at most four). False in general: names behind an optional part are missing, and names that are only possible later are listed; what is listed is described exactly, as are the conditions under which nothing is missing or wrong.", "quantifier": "all states", "why_tests_cant": "all pattern states", "anchors": ["relaxng-validator/src/lib.rs: head, heads, describe_expected"]}
{"id": "C47", "title": "Mismatched or missing end of document", "statement": "After the last token of a document the validator has verified that the root element was complete (the expected content is exhausted).", "quantifier": "all token streams", "why_tests_cant": "all prefixes", "anchors": ["relaxng-validator/src/lib.rs: validate_next, end_tag_deriv"]}
{"id": "C48", "title": "List patterns match whitespace-separated tokens", "statement": "list{p} matches a text exactly when the sequence of its tokens, separated by the 25 Unicode white-space characters, matches p token by token.", "quantifier": "all patterns p, all texts", "why_tests_cant": "all texts", "anchors": ["relaxng-validator/src/lib.rs: text_deriv (Pat::List)"]}
{"id": "C49", "title": "Except in data patterns", "statement": "data - except matches exactly the strings valid for the datatype that are not matched by the excepted choice of values/data.", "quantifier": "all data-only except patterns, all strings", "why_tests_cant": "all strings", "anchors": ["relaxng-validator/src/lib.rs: text_deriv (Pat::DatatypeExcept)"]}
{"id": "C50", "title": "xsd:language accepts exactly language tags", "statement": "xsd:language accepts a string exactly when it is 1-8 letters followed by any number of groups of a hyphen and 1-8 letters or digits (and matches the last pattern facet).", "quantifier": "all strings, any number of subtags", "why_tests_cant": "infinitely many strings; the regular expression must be right about boundaries and repetition", "anchors": ["relaxng-model/src/datatype/xsd.rs: LANG_RE, XsdDatatypes::is_valid"]}
{"id": "C51", "title": "xsd:dateTime accepts exactly its time-stamp form", "statement": "xsd:dateTime accepts a string exactly when it is [-]YYYY-MM-DDThh:mm:ss followed by nothing, Z, or Z and an offset (and matches the last pattern facet).", "quantifier": "all strings", "why_tests_cant": "infinitely many strings; anchors and optional parts interact", "anchors": ["relaxng-model/src/datatype/xsd.rs: DATETIME_RE, XsdDatatypes::is_valid"]}
{"id": "C52", "title": "Which datatypes can panic", "statement": "A compiled datatype answers true or false for every string except the xsd types NMTOKEN, NMTOKENS and token, which panic; a compiled value answers for every string except an xsd:QName compared with a prefixed name; compiling a value panics exactly for xsd types other than string, token, QName, or a prefixed QName.", "quantifier": "all datatype names, parameters, values and strings", "why_tests_cant": "the panicking inputs are found only by reading every branch", "anchors": ["relaxng-model/src/datatype/xsd.rs: XsdDatatypes::is_valid, compile_value, QNameVal::try_from_val", "relaxng-model/src/datatype/mod.rs: Compiler"]}
{"id": "C53", "title": "A compiled schema means what its source files say", "statement": "If a schema file compiles, a document element matches the compiled start rule exactly when it matches the schema as written: references looked up in the definitions of the enclosing grammars, `|=` and `&=` combined, `parent` looking one grammar out, external and included files brought in, overridden definitions replaced. Together with C01/C02: for well-formed schemas the validator accepts exactly the documents the source files describe.", "quantifier": "all file systems and syntax trees (any number of files, includes, grammars, definitions), all documents", "why_tests_cant": "unboundedly many schemas and documents; includes, overrides and nested grammars interact", "anchors": ["relaxng-model/src/lib.rs: Compiler::compile, compile_schema, compile_include, compile_pattern, compile_external, compile_grammar_pattern, Context::define, Context::acquire_ref, merge1", "relaxng-validator/src/lib.rs: Validator::new"]}
{"id": "C54", "title": "Every compile failure names a fault the schema really has", "statement": "If compiling a schema fails, the error or panic corresponds to a fault of the schema as written: an undeclared prefix really is undeclared at a place where it is used, a duplicate definition really is given twice, an undefined reference really has no definition, a recursive include really is one, and so on for each of the error kinds. The internal panics (unreachable code, combining rules of the wrong kind) never occur; the other panics occur only at their named constructs. A schema without any such fault compiles (where compilation ends, C38).", "quantifier": "all file systems and syntax trees, every error outcome", "why_tests_cant": "a test shows one schema per error; that no other schema produces the error, and that no internal panic is reachable, is a statement about all schemas", "anchors": ["relaxng-model/src/lib.rs: Compiler::compile, Context::define, Context::acquire_ref, compile_include, compile_external, compile_grammar_pattern, compile_declaration, merge1, RelaxError"]}
{"id": "C55", "title": "Prefixes and start rules across file and grammar boundaries", "statement": "Known deviations at boundaries: the declarations of a file used by `external` are not read; a grammar used by `external` is read with the prefixes of the using file; a nested grammar whose definitions refer to its own start is refused; the prefixes of the including file are not known inside its overrides.", "quantifier": "witness schemas for each deviation (existential)", "why_tests_cant": "the project's tests do not cover them; the model's semantics (C53) states precisely which environment applies where", "anchors": ["relaxng-model/src/lib.rs: compile_external, compile_grammar_pattern, Context::new_inc_overrides, namespace_uri_for_prefix_impl"]}
{"id": "C56", "title": "Compilation depends only on the contents of the files", "statement": "Compiling a schema gives the same compiled rules and start rule, or the same error, whatever was compiled before with the same compiler, as long as the files it loaded earlier have not changed; and two file sources with the same contents give the same result.", "quantifier": "every set of files, every faithful cache", "why_tests_cant": "histories of compilations are unbounded", "anchors": ["relaxng-model/src/lib.rs: Compiler::get_schema, Compiler::loaded, compile"]}
{"id": "C57", "title": "A schema is accepted exactly if it has no fault", "statement": "Compiling a schema succeeds exactly if none of a fixed list of faults occurs anywhere in it or in the files it uses: unreadable file, undeclared prefix, name without definition, clashing definitions, missing start, element inside an attribute, immediate self-reference, recursive include, invalid datatype or parameter, override of a missing name, and the constructs the compiler panics on; and there is no endless way into it (C38). When it fails, the error stands for one of the schema's own faults.", "quantifier": "every schema (of any size, any number of files), every file source", "why_tests_cant": "both directions quantify over all schemas; a fault may sit at any depth, in any file, in a definition nothing uses", "anchors": ["relaxng-model/src/lib.rs: Compiler::compile, compile_pattern, compile_grammar_item, compile_include, merge, check, Context"]}
{"id": "C58", "title": "Reading the compact syntax", "statement": "Every way of writing a schema in the compact syntax (white space, comments, annotations, quoting and parentheses at will) is read as that schema; what is read is a way of writing the schema that results; reading always ends, and does not panic if comments end with a line feed and there are no >> annotations; a schema compiled from texts means what the texts say.", "quantifier": "all texts, all schemas", "why_tests_cant": "all texts: arbitrary nesting, spacing and lookahead between alternatives of a backtracking parser", "anchors": ["relaxng-syntax/src/compact.rs: schema, top_level, pattern, name_class, grammar_content, annotations", "relaxng-model/src/lib.rs: Syntax::parse"]}
{"id": "C59", "title": "Reading the XML syntax", "statement": "Every schema document in the RELAX NG XML syntax is read as the schema it says, what is read is what the document says, no document says two things; a schema compiled from documents means what the documents say.", "quantifier": "all schema documents (trees), all schemas", "why_tests_cant": "arbitrary nesting of elements and contexts", "anchors": ["relaxng-syntax/src/xml.rs: parse, pattern, name_class, grammar_content, include_content", "relaxng-model/src/lib.rs: Syntax::parse"]}
{"id": "C60", "title": "Foreign content in schema documents is ignored", "statement": "Foreign elements, foreign attributes, comments, processing instructions and character data between elements, the order of attributes and unused prefix declarations have no influence on the schema that is read (inside name, value and param elements excepted).", "quantifier": "all pairs of schema documents that differ in such content only", "why_tests_cant": "insertions at any place, any number of times", "anchors": ["relaxng-syntax/src/xml.rs: is_rng_node, is_rng_att, first_rng_child, next_rng_sibling"]}
{"id": "C61", "title": "Both syntaxes agree", "statement": "Schemas that say the same - the same structure, with names and datatypes that stand for the same things, in whatever syntax, prefixes, grouping of operators, parentheses and annotations - compile to the same rules or fail with the same error; and a compact schema compiles like its translation to the XML syntax.", "quantifier": "all collections of files, with includes, nested grammars and parent references; translations exist for schemas without external references and inherit clauses and a few constructs the XML reader cannot express", "why_tests_cant": "the schemas, their spellings and groupings are unbounded", "anchors": ["relaxng-syntax/src/xml.rs", "relaxng-syntax/src/compact.rs", "relaxng-model/src/lib.rs: Compiler::compile"]}
{"id": "C62", "title": "Ill-formed schema documents", "statement": "A well-formed schema document is read or refused with an error; (negative) an ill-formed one makes the program panic, whatever the text and the place of the error.", "quantifier": "all texts and all error positions", "why_tests_cant": "all texts", "anchors": ["relaxng-syntax/src/xml.rs: parse", "relaxng-model/src/lib.rs: Syntax::parse"]}
{"id": "C63", "title": "Deviations of the XML reader", "statement": "(negative) Prefixed names in name elements are not resolved; attributes inherit ns; a comment can become or truncate a value; the type token ignores the library; ns and datatypeLibrary are refused where allowed and other attributes accepted where forbidden; empty parameters are refused.", "quantifier": "concrete schema documents", "why_tests_cant": "recorded so that the positive theorems are read correctly", "anchors": ["relaxng-syntax/src/xml.rs: qname_el, qname_att, value, data, param, start, no_attrs"]}
{"id": "C64", "title": "Validation errors point at the fault", "statement": "Whatever items are read, in whatever order and after whatever errors, an error is about the item it is reported for, the start tag that item ends, or a reference in it; the range of bytes it carries is a range of whole characters of the document and shows exactly that thing. (negative) For malformed character references the range is not relative to the document, though it still lies within it.", "quantifier": "all schemas, all texts, all sequences of tokens taken from the text", "why_tests_cant": "all token sequences, all positions, all multi-byte texts", "anchors": ["relaxng-validator/src/lib.rs: validate, close_element_start, parse_entities, numeric_entity, ValidatorError"]}
{"id": "C65", "title": "Every validation error can be shown", "statement": "Every error reported in a run over a document, other than XML syntax errors, can be turned into diagnostics in every state the validator can reach: no panic and no change of state; the first has the message and the range of the error; for something not allowed a second one lists the elements on offer, up to four, and the number of the others, or advises removal.", "quantifier": "all well-formed schemas, all reachable states, all runs, all iteration orders of the hash set", "why_tests_cant": "all reachable states and orders", "anchors": ["relaxng-validator/src/lib.rs: diagnostic, heads, head, describe_expected, describe_nameclass"]}
{"id": "C66", "title": "Showing XML syntax errors", "statement": "(negative) An XML syntax error in row r (counting from one) of a document is shown in the line after it, at byte r of that line, and makes the program panic if there is no such line or it is shorter than r bytes.", "quantifier": "all texts, all error positions, all states", "why_tests_cant": "all texts and positions", "anchors": ["relaxng-validator/src/lib.rs: diagnostic"]}
{"id": "C67", "title": "Source positions do not change what a schema compiles to", "statement": "Compiling a schema comes to the same result (definitions, error, panic) whatever the positions of its parts are, except for a panic if a position lies outside the file it is taken for; it compiles exactly if it would without positions and every position of an element, attribute, reference, definition, include or external lies in the file it is taken for. Without a grammar file used by `external`, positions never matter. (negative) A grammar file used by `external` that is longer than the file using it makes compiling panic although nothing is wrong with it.", "quantifier": "all schemas (trees with positions), all file systems, all file lengths", "why_tests_cant": "all schemas, all positions and lengths of files", "anchors": ["relaxng-model/src/lib.rs: convert_span, compile_external, compile_include, compile_pattern, check_ref_recursion, acquire_parent_ref"]}
{"id": "C68", "title": "Schema errors point at the fault", "statement": "The positions in every error of the schema compiler lie in the file they are reported for and mark what the error is about: the prefix, reference, definition, include, datatype name, parameter, attribute and element concerned, with the chain of includes that led there. (Deviations: a name undefined in a grammar and an unsupported library of a prefixed datatype are reported at the beginning of the file; a parent reference without a parent is reported in the file of the schema; a duplicate definition is called the original.)", "quantifier": "all schemas, all file systems", "why_tests_cant": "all schemas with any error at any place", "anchors": ["relaxng-model/src/lib.rs: RelaxError, compile_pattern, merge1, check, namespace_uri_for_prefix, compile_include; relaxng-model/src/datatype/xsd.rs: parameters"]}
{"id": "C69", "title": "Positions of the compact syntax show the source text", "statement": "Reading a text of the compact syntax yields a syntax tree in which every recorded position (elements, attributes, references, definitions, includes, externals, grammars, prefixes, datatype names, parameters) is a byte range of that text that holds exactly the text of the thing it marks; the position of `start` is the empty one before the word. Reading with positions reads the same tree and refuses the same texts as reading without. Hence, without a grammar file used by `external`, undefined prefixes, recursive references and elements in attributes are reported at positions where the schema text shows the prefix, the names, the attribute and the element. (negative) In a grammar file used by `external`, a fault is reported at a position of the file that uses it, where something else may stand.", "quantifier": "all texts, all file systems of texts", "why_tests_cant": "all texts, including multi-byte characters, comments and annotations anywhere", "anchors": ["relaxng-syntax/src/compact.rs: span, identifier, cname, element, attribute, define, start, include, external, param, datatype_name", "relaxng-model/src/lib.rs: convert_span"]}
{"id": "C70", "title": "Diagnostics of schemas point at the fault", "statement": "For every error of the schema compiler there is a diagnostic, except (it panics) for contradicting datatype parameters and a datatype prefix declared twice, in whatever file they are. A diagnostic has exactly one primary label, its first, and after the labels of the error itself one for every include that led to it, innermost first; only an unreadable schema file has none. For texts of the compact syntax that use no grammar file by `external` (and `parent` only at home), each label shows in the text of its file what the message is about: the prefix, name, definition, literal, element and attribute, parameter, type name, or whole file; every label is a range of whole characters, so it can be printed, and the tool ends with status 1. In general the tool with positions ends as it would without, or panics. (negative) A name undefined in a grammar is 'referenced' at the beginning of the file; the labels of a duplicate definition are swapped; in a grammar used by `external` a label may lie in the middle of a character of another file.", "quantifier": "all schemas, all texts, all file systems, all documents given to the tool", "why_tests_cant": "all errors at all places, all chains of includes", "anchors": ["relaxng-model/src/lib.rs: Compiler::diagnostic, dump_diagnostic", "relaxng-tool/src/main.rs: validate"]}
{"id": "C71", "title": "Errors and positions of the XML schema reader", "statement": "A schema document in the XML syntax is refused exactly if it has a fault (an element, attribute, name or text that the schema language does not allow there); the error names a fault the document has, and says where it is. A document that roxmltree accepts never leads to a panic in the reader: every reported position lies in the text, and all but those counted inside a name cover whole characters. Every position put into the syntax tree is that of the node or attribute it comes from; with unprefixed tags the text shows there the tag name, or the attribute value that stands for the name, path or type. Hence schemas whose documents use no grammar by externalRef compile exactly if they do without positions, and never panic over a position; the places of recursive references and of elements inside attributes show them. (negative) An undefined prefix in a <name> element is never reported where it stands, but at the `<` of the element; the position of an element with a prefixed tag does not show its name; a wrong character of more than one byte is cut; white space before a name shifts the place of a wrong character.", "quantifier": "all schema documents and their texts, all file systems", "why_tests_cant": "all documents, all faults at all places", "anchors": ["relaxng-syntax/src/xml.rs: parse and all readers, Error", "relaxng-model/src/lib.rs: Syntax::parse, Files::load"]}
{"id": "C72", "title": "Syntax errors are reported no later than the fault", "statement": "When the text of a schema in the compact syntax is refused, the reported place lies between two characters of the text (or at its end), and everything before it is the beginning of a text of some schema: the fault is not before the place, so the label, which goes on from there to the end of the file, contains it. Texts that the grammar derives are not refused. The places of errors change nothing else: the parser accepts, refuses and panics as without them. Hence the diagnostic of a syntax error, in whatever included file, always has a printable label that contains the fault, and the command line tool ends as without positions, with no assumption about the parser left. (negative) The place can be before the fault.", "quantifier": "all texts (any length and nesting), all file systems", "why_tests_cant": "all wrong texts and all places in them", "anchors": ["relaxng-syntax/src/compact.rs: schema, top_level, pattern, grammar_content, name_class and all they use", "relaxng-model/src/lib.rs: Syntax::parse, dump_diagnostic, diagnostic"]}
{"id": "C73", "title": "Diagnostics of schemas in the XML syntax point at the fault", "statement": "Every error of compiling a schema in the XML syntax can be turned into a message, except (a panic) that a facet conflicts with another and that a datatype prefix is declared twice. The message has exactly one primary label, its first, except for an unreadable main file, which has none; after the labels of the error itself comes one label for every include that led to it, innermost first, each showing the include's href. With unprefixed tags and without externalRef to grammars, every other label shows what the message is about: the reference, the definition, the data element, the attribute or element the reader refuses; what the reader refuses is a real fault of the document at the label's place. All labels are whole characters and can be printed, except those of a wrong character in a name and of an undefined prefix in a <name> element. The message 'XML parsing error' never appears: a document that is not well-formed makes the compiler panic.", "quantifier": "all XML schema documents with their texts, all file systems, all chains of includes", "why_tests_cant": "all documents, all faults at all places, all include chains", "anchors": ["relaxng-model/src/lib.rs: dump_diagnostic, diagnostic, Syntax::parse", "relaxng-syntax/src/xml.rs: Error"]}
{"id": "C74", "title": "What becomes of datatype parameters", "statement": "For each of the 24 supported XML Schema types and every list of parameters, compiling the type succeeds exactly if nothing is objected to any parameter; otherwise the first parameter objected to decides the outcome: unknown facet, unreadable bound or length, invalid regular expression, bound contradicting an opposite bound or given beside the other kind of the same bound (conflict); the same bound given twice, or a length facet after `length` or `maxLength`, panics. Bounds of `double` must be finite. Other type names are reported as unsupported whatever the parameters; the built-in library refuses every parameter; unknown libraries are reported.", "quantifier": "every type name, every list of parameters (any length, order, repetition), every regular-expression/decimal/float library", "why_tests_cant": "all parameter lists, in every order, for each type", "anchors": ["relaxng-model/src/datatype/xsd.rs: Compiler::compile, LengthFacet::merge, MinMaxFacet::{min_inclusive,min_exclusive,max_inclusive,max_exclusive}, Compiler::{i16..f64,usize,pattern}", "relaxng-model/src/datatype/relax.rs: datatype_name", "relaxng-model/src/datatype/mod.rs: datatype_name, dt_name"]}
{"id": "C75", "title": "What compiled facets report", "statement": "For every compiled integer type, the reported least (greatest) value is the least (greatest) integer that the schema's lower (upper) bound allows and is a value of the type; nothing is reported exactly if the schema gives no such bound; asking panics exactly if the schema gives minExclusive with the type's greatest value (maxExclusive with its least value); a text is accepted exactly if it is a numeral of a value between the two that the pattern matches. `bounded` tells exactly whether there is a bound. For string and normalizedString, the reported lengths are those of minLength/length and maxLength/length, the reported expression is the last pattern, and for string these three decide acceptance. For decimals inclusive bounds are reported as given, but exclusive ones are reported shifted by one although the decimals in between are accepted.", "quantifier": "every integer, string and decimal type, every parameter list that compiles, every text", "why_tests_cant": "all bounds of all types, at all values", "anchors": ["relaxng-model/src/datatype/xsd.rs: MinMaxFacet::{min,max,min_cloned,max_cloned,bounded}, StringFacets::{bounded,min_len,max_len,regex}"]}
{"id": "C76", "title": "Loaded files", "statement": "After a successful `compile`, `loaded()` gives exactly the files loaded before together with the files the schema uses: its own file and every file named by an include or external anywhere in those files, also inside definitions that nothing refers to; each file once and with the contents it would be loaded with. Compiling the same schema again loads nothing.", "quantifier": "every file system, schema, nesting of includes and externals, and every earlier state of the compiler", "why_tests_cant": "all include graphs and all histories of the compiler", "anchors": ["relaxng-model/src/lib.rs: Compiler::loaded, Compiler::compile, get_schema, compile_include, compile_external"]}
{"id": "C77", "title": "A tag is accepted exactly when the document can still become valid", "statement": "For a schema all of whose parts can be used (every element pattern matches some element, repeated attributes occur under zeroOrMore only), if Validator::validate has returned Ok for the tokens of a document up to and including some tag, then there is a document that begins with exactly these tokens and matches the schema; together with C03, validate returns an error at a tag exactly if no document beginning with what has been read matches, so the first error comes at the first tag after which nothing can make the document valid. Without the condition on the schema this fails: with `attribute * { text }+` a start tag without attributes is accepted, and with `element b { notAllowed }` in required position the parent's start tag is accepted.", "quantifier": "for all such schemas, all documents the validator's XML layer treats faithfully, all their beginnings that end in a tag", "why_tests_cant": "it claims the existence of a completion for every accepted beginning of every document of any depth; a test can only complete particular beginnings by hand", "anchors": ["relaxng-validator/src/lib.rs: Validator::validate, start_tag_open_deriv, atts_deriv, start_tag_close_deriv, end_tag_deriv, Schema choice/group/interleave/after smart constructors"]}
{"id": "C78", "title": "How many patterns the validator keeps", "statement": "Items that have been read at some place of a document are read at every later place that looks the same (same expected content, same meaning of prefixes and entities) with the same verdicts and without keeping any further pattern, as long as the table of patterns is not full; so content that leads back to a place that looks the same can be repeated any number of times within the patterns of its first occurrence. (negative) In general the number of patterns is not bounded by the schema: for `element r { element a { empty }*, element a { empty }* }` two more are kept for every child, so that every document <r><a/>...</r> is valid, is accepted up to 32760 children, and makes the validator panic from 32761 on. (negative) A record of every start tag ever read is kept until the validator is dropped.", "quantifier": "all schemas, all reachable validator states, all item sequences (with errors), all numbers of repetitions; all numbers of children for the negative result", "why_tests_cant": "The claims are about arbitrarily long documents and arbitrary histories; the panic needs a document of more than 32760 children of a particular schema.", "anchors": ["relaxng-validator/src/lib.rs: Schema::push, Schema::choice, Validator::validate, ElementStack"]}
{"id": "C79", "title": "Equal datatypes accept the same", "statement": "The validator keeps one pattern for all patterns that compare equal. Two datatypes of compiled schemas that compare equal accept exactly the same strings (and panic on the same strings), although the comparison of a pattern facet looks at its source text and not at the compiled expression, and the comparison of decimal bounds at the numbers and not at their digits (1.0 and 1.00). The comparison is an equivalence relation, and datatypes that compare equal feed the same to the hasher (given that decimals do), as a hash map requires. Interning by this comparison is interning what the datatypes mean. (The converse of the first claim is false: `fractionDigits` is compared but never tested.)", "quantifier": "all datatypes with all facets, all strings, all pattern tables, all ways decimals are read", "why_tests_cant": "Ranges over all pairs of datatypes with all facet values and all strings, and over the contents of the pattern table.", "anchors": ["relaxng-model/src/datatype/xsd.rs: XsdDatatypes, PatternFacet (PartialEq, Hash), Compiler::pattern", "relaxng-model/src/datatype/mod.rs: Datatypes", "relaxng-validator/src/lib.rs: Pat, Schema::push"]}
{"id": "C80", "title": "Refactoring a schema does not change what it accepts", "statement": "If one version of a schema is obtained from another by putting definitions in another order, renaming them, moving them into a div or an included file, merging definitions that say the same, adding or dropping definitions that nothing refers to, replacing a reference by the body of its definition (or back), pasting in a file used by external (or back), writing `a = p`, `a |= q` for `a = p | q` and `a &= p`, `a &= q` for `a = p & q`, exchanging or regrouping alternatives and interleaved parts, regrouping sequences, or writing names and datatypes with other prefixes, in any combination and anywhere, also in nested grammars and in exceptions, then both versions describe the same documents, and, if both compile to well-formed schemas, every document is accepted by both validators or rejected by both.", "quantifier": "all file systems, schemas and combinations of such changes, all documents", "why_tests_cant": "infinitely many schemas, changes and documents; recursion between definitions makes it a statement about least fixed points", "anchors": ["relaxng-model/src/lib.rs: Compiler::compile, compile_pattern, compile_grammar_contents, compile_include, compile_define", "relaxng-validator/src/lib.rs: Validator"]}
{"id": "C81", "title": "The order and grouping in which a schema is written does not matter", "statement": "If two versions of a schema's files differ only in the order of the entries of grammars (with div blocks dissolved and annotations dropped), the order of an include's overrides, the order and grouping of alternatives and of interleaved parts, the grouping of sequences, parentheses inside patterns and the order and grouping of names in a name class, then one version compiles if and only if the other does, both describe the same documents, validators built from them agree on every document, and if all includes can be followed both have exactly the same set of faults. (Which of several faults is reported does depend on the order, and a file consisting of a grammar in parentheses cannot be included although the bare grammar can.)", "quantifier": "all file systems, schemas, rearrangements and documents, whatever has been loaded before", "why_tests_cant": "infinitely many schemas and rearrangements; the compiler has mutable state whose contents do depend on the order, so only the outcome can be compared", "anchors": ["relaxng-model/src/lib.rs: Compiler::compile, compile_grammar_contents, compile_div, compile_include, compile_define, compile_choice, compile_interleave"]}
{"id": "C82", "title": "Comments, processing instructions and CDATA sections in running text never matter", "statement": "If the character data in some elements of a document is interrupted by comments or processing instructions, or is written partly in CDATA sections, and wherever the schema describes an element of that name it asks for nothing but text (no datatypes, values or lists outside attributes and child elements), then the document is accepted exactly when it matches the schema, an error is final, and two documents that differ only in such interruptions get the same verdict. (Where the schema asks for data the interruption does matter: a document that matches is rejected.)", "quantifier": "all well-formed schemas, documents and placements of comments, processing instructions and CDATA sections", "why_tests_cant": "infinitely many schemas, documents and placements; the validator sees each piece of text separately and drops white space piece by piece", "anchors": ["relaxng-validator/src/lib.rs: Validator::validate (Text, Cdata, Comment, ProcessingInstruction), text_deriv"]}
{"id": "C83", "title": "Exactly what is accepted, for every document", "statement": "Every document, without any condition on its namespaces, references or entity declarations, is accepted if and only if it can be read and matches the schema as it is read. As read: a name without prefix has no namespace (default namespaces are ignored); a prefix means what its last declaration read so far says, in an element that has been closed or not, and no prefix is predeclared; attribute values are taken as written; of several declarations of an entity the last counts; in character data references are replaced, numbers may have a plus sign, a lone & at the end is dropped, the rest is dropped at an entity whose value is as long as the data, and data of which nothing is left is taken as written. A document is read in at most one way; one that cannot be read (a prefix not declared before it is used, a reference that cannot be replaced) is accepted by no schema; an error is final. Documents without the things that are read differently are read as they mean. (If character data is interrupted, the schema may ask for nothing but text there.)", "quantifier": "all well-formed schemas and all documents", "why_tests_cant": "infinitely many schemas and documents; the reading depends on all declarations before a name and on all characters of a text", "anchors": ["relaxng-validator/src/lib.rs: Validator::validate, ElementStack::{add_attr, lookup_namespace_uri, try_lookup_namespace_uri, current_element, current_attributes}, parse_entities, entities"]}
{"id": "C84", "title": "The tool's exit status, end to end", "statement": "Given the texts of a schema's files and the tokens of any documents, if the tool exits with a status, then the status is 1 exactly if the schema, as its texts say, has a fault; 0 exactly if it has none and every document, as it is read, matches the schema as its texts say; and 2 exactly if it has none and some document, as it is read, does not match. With status 2, all documents before the one reported match. (The compiled schema has to be well-formed, and where character data in a document is interrupted it may ask for nothing but text.)", "quantifier": "all schema files in the compact syntax, all lists of documents, all budgets for which the tool exits", "why_tests_cant": "infinitely many schemas and documents; relates the texts through parser, compiler and validator to an independent meaning", "anchors": ["relaxng-tool/src/main.rs: main", "relaxng-model/src/lib.rs: Compiler::compile", "relaxng-syntax/src/compact.rs: schema", "relaxng-validator/src/lib.rs: Validator::validate"]}
{"id": "C85", "title": "The tool stops at the first token that cannot be mended", "statement": "If the tool exits with status 2, it does so for a token of one of the documents such that the document up to and including any tag before this token could still be completed to a document matching the schema as written, and with this token it can not; and what is printed are the diagnostics of an error about this very token. (The compiled schema has to be well-formed and usable, every element and attribute in it being satisfiable; documents are ordinary ones.)", "quantifier": "all schemas, all lists of ordinary documents, all runs of the tool that exit with 2", "why_tests_cant": "that no completion exists is a statement about infinitely many documents, for infinitely many schemas and documents", "anchors": ["relaxng-tool/src/main.rs: main", "relaxng-validator/src/lib.rs: Validator::validate_next, Validator::validate, Validator::diagnostic"]}
{"id": "C86", "title": "From the schema's text in either syntax to the verdict on any document", "statement": "If a schema, given as texts in the compact syntax or as documents in the XML syntax, compiles, then validating any document with it to the end succeeds if and only if the document, as it is read, matches the schema as its texts say. (The compiled schema has to be well-formed, and where character data in the document is interrupted it may ask for nothing but text.)", "quantifier": "all schema files of either syntax, all documents, all budgets for which the validator finishes", "why_tests_cant": "infinitely many schemas and documents; relates texts through parser, compiler and validator to an independent meaning", "anchors": ["relaxng-syntax/src/compact.rs: schema", "relaxng-syntax/src/xml.rs: parse", "relaxng-model/src/lib.rs: Compiler::compile", "relaxng-validator/src/lib.rs: Validator::new, Validator::validate_next"]}
{"id": "C87", "title": "Schemas outside the restrictions are misjudged, and one within them", "statement": "Neither the compiler nor the validator refuses a schema that breaks the restrictions of section 7 of RELAX NG, and verdicts on such schemas can be wrong: a start pattern that is no choice of elements, an interleaved list and a list in a list make the validator accept documents that do not match; an attribute grouped with something in a repetition makes it reject a document that matches. Within all restrictions, a recursive definition that may be empty, in a repetition in a repetition, makes it reject a document that matches. So each condition of C01 and C02 on schemas is needed.", "quantifier": "existence of schemas and ordinary documents; the verdict is the one for the schema as compiled, compared with the schema as written", "why_tests_cant": "that a document does not match is a statement about all ways of matching; marks the exact boundary of the universal claims C01 and C02", "anchors": ["relaxng-validator/src/lib.rs: Schema::one_or_more, Validator::att_deriv, Validator::start_tag_close_deriv, Validator::text_deriv", "relaxng-model/src/lib.rs: Compiler::compile"]}
{"id": "C88", "title": "A mechanical test of schemas for which every verdict is right", "statement": "There is a test that can be run on any compiled schema, such that for every schema that passes it: building a validator and validating never panics, but for the pattern limit and a datatype that does; and every document in which no character data is interrupted - and, if no element of the schema asks for data, every document - is accepted if and only if, as it is read, it matches the schema as its files say, in either syntax. The test decides the conditions on schemas that C01 and C02 ask for: a schema passes if and only if it meets them, and how far references have to be followed is known from the number of definitions and of references in them. The schemas of C87 that are misjudged do not pass.", "quantifier": "all schemas that pass the test, to any depth of references; all documents; all budgets for which the validator finishes", "why_tests_cant": "infinitely many schemas and documents; the test has to be sound for every schema, including recursive ones", "anchors": ["relaxng-validator/src/lib.rs: Validator::new, Validator::validate_next", "relaxng-model/src/lib.rs: Compiler::compile", "relaxng-model/src/model.rs: Pattern"]}
{"id": "C89", "title": "Every document is judged", "statement": "For a compiled schema that passes the tests of C88 and mentions (itself or in the definitions it uses) no datatype without a check - xsd:NMTOKEN, xsd:NMTOKENS, xsd:token, or a value of type xsd:QName - building a validator ends, and so does validating any document; neither aborts except because of the limit of 65536 patterns; and if that is not hit, the document is accepted if it matches, as it is read, the schema as its files say, and refused if not. In general, the validator aborts for want of a datatype only if the schema mentions one its library does not answer for.", "quantifier": "all schemas that pass the tests, in either syntax; all documents (with uninterrupted character data, unless no element asks for data); all token sequences for the claim about aborts", "why_tests_cant": "infinitely many schemas and documents; termination and the absence of aborts on all of them", "anchors": ["relaxng-validator/src/lib.rs: Validator::new, Validator::validate_next, Validator::text_deriv", "relaxng-model/src/datatype/xsd.rs: XsdDatatypes::is_valid, XsdDatatypeValues::is_valid", "relaxng-model/src/lib.rs: Compiler::compile"]}
{"id": "C90", "title": "The tool judges every document", "statement": "Given a schema that does not include itself endlessly and, if it compiles, passes the tests of C88 and C89, and any documents, the tool ends: with status 1, and the schema has a fault; with status 0, and every document, as it is read, matches the schema as its text says; with status 2, and some document does not; or with a panic, and then the schema has a fault for which there is no message, or with some document the limit of 65536 patterns is hit or a malformed character reference would have to be shown. Nothing else can happen.", "quantifier": "all schemas (as texts in the compact syntax) that pass the tests if they compile, all lists of documents", "why_tests_cant": "infinitely many schemas and documents; the outcomes have to be exhaustive", "anchors": ["relaxng-tool/src/main.rs: main, validate", "relaxng-validator/src/lib.rs: Validator::new, Validator::validate_next, Validator::diagnostic", "relaxng-model/src/lib.rs: Compiler::compile"]}
{"id": "C91", "title": "How large a schema may be", "statement": "Building a validator for a schema keeps at most as many patterns as are written in the schema and its definitions (where p? counts as p | empty, p* as p+ | empty, mixed as an interleave with text, a choice, group or interleave of n patterns as n more, each definition as one more and a reference as none), however often definitions are referred to and whether or not they are recursive. A schema with fewer than 65536 of them therefore never aborts with the capacity panic before the first token; with the tests of C88 and C89 a validator for it is always built and judges every document, unless too many patterns come up during validation, and the size of the schema is no reason for the tool to panic. Conversely, every element and attribute of a different name in the schema, or in a definition it uses, takes a pattern of its own, so for a schema with more than 65536 of them building a validator always ends with that panic.", "quantifier": "all schemas, recursive or not; all documents", "why_tests_cant": "infinitely many schemas; definitions are shared and recursive, so what is kept is not bounded by what any one definition looks like", "anchors": ["relaxng-validator/src/lib.rs: Validator::new, Validator::compile, Schema::push (panics beyond 0xffff)"]}
{"id": "C92", "title": "Loosening a schema keeps valid documents valid", "statement": "If a schema is loosened - an alternative is added, something is made optional or repeatable, members that may be left out are added to a sequence or an interleave, text may stand between parts, the names of an element or attribute are widened, exceptions are dropped or data is replaced by text, definitions are renamed, reordered, inlined or added, any number of these together and anywhere, also in recursive definitions - then every document the validator accepted it accepts with the loosened schema, provided both schemas are well-formed (a condition with a mechanical test, C88) and neither run hits the pattern limit; and a document refused with the loosened schema was refused with the original one.", "quantifier": "all schemas and all ways of loosening them; all documents", "why_tests_cant": "infinitely many schemas, changes to them and documents; the validator compiles both schemas to different tables, whose derivatives have nothing in common", "anchors": ["relaxng-validator/src/lib.rs: Validator::new, Validator::validate_next, Validator::compile, text_deriv, start_tag_open_deriv, att_deriv, start_tag_close_deriv, end_tag_deriv"]}
{"id": "C93", "title": "Alternatives are judged one by one", "statement": "If the start of a schema is a choice of several well-formed patterns, whose definitions it shares, it is well-formed, and the validator accepts exactly the documents that it accepts with one of them as the start, however they overlap; so the order of the alternatives and repetitions among them do not matter.", "quantifier": "all schemas, numbers of alternatives and documents", "why_tests_cant": "infinitely many schemas and documents; the derivative of a choice simplifies and merges what its alternatives become, so the runs share nothing", "anchors": ["relaxng-validator/src/lib.rs: Validator::new, Validator::validate_next, Validator::compile, text_deriv, start_tag_open_deriv, att_deriv, start_tag_close_deriv, end_tag_deriv"]}
{"id": "C94", "title": "Elements can be exchanged for others that match the same patterns", "statement": "Whether an element may stand where it stands depends only on which of the schema's element patterns it matches by itself: if an element y matches every element pattern of the schema that x matches, then in an accepted document any elements x, at any depth and any number of them, can be replaced by y and the document is still accepted; if both match the same element patterns, exchanging them changes no verdict.", "quantifier": "all schemas, documents, elements in them and places where they are replaced", "why_tests_cant": "infinitely many schemas, documents and contexts; the validator reads x in the middle of a document with all that may follow it in its state", "anchors": ["relaxng-validator/src/lib.rs: Validator::new, Validator::validate_next, Validator::compile, text_deriv, start_tag_open_deriv, att_deriv, start_tag_close_deriv, end_tag_deriv"]}
{"id": "C95", "title": "Names are opaque", "statement": "The validator looks at names only to compare them: if namespace names and local names are replaced by others, one-to-one (no namespace staying no namespace and xmlns staying xmlns), throughout a well-formed schema - elements, attributes, name classes with exceptions - and throughout a document - start tags, attributes, namespace declarations -, the new schema is well-formed, the new document is read as the old one with the new names, and the validator for the new schema accepts it if and only if the one for the old schema accepted the old document.", "quantifier": "all schemas, documents and one-to-one replacements", "why_tests_cant": "infinitely many schemas, documents and replacements; names are found through prefixes, compared in name classes and in the memo of the patterns", "anchors": ["relaxng-validator/src/lib.rs: Validator::new, Validator::validate_next, contains, ElementStack::add_attr, text_deriv, start_tag_open_deriv, att_deriv, start_tag_close_deriv, end_tag_deriv"]}
{"id": "C96", "title": "The choice of prefixes never matters", "statement": "Replacing the prefixes used in a document by others, one-to-one - in its declarations and in the names of elements and attributes; no prefix stays no prefix and xmlns stays xmlns - does not change how the validator reads it, whatever is declared where (also where declarations are taken for longer than they should be, C14), and so, for every well-formed schema, not whether it is accepted.", "quantifier": "all schemas, documents and one-to-one replacements of prefixes", "why_tests_cant": "infinitely many documents and replacements; declarations are nested, shadowed and redeclared", "anchors": ["relaxng-validator/src/lib.rs: Validator::validate_next, ElementStack::push, ElementStack::add_attr, ElementStack::lookup_namespace_uri"]}
{"id": "C97", "title": "Data that the schema does not tell apart can be exchanged", "statement": "In a document, character data and attribute values can be replaced, anywhere and any number of them, by others that no value or datatype in the schema (exceptions included) tells apart from them, that consist of the same words if the schema has lists, and that are white space only if they were, without changing the verdict of the validator.", "quantifier": "all well-formed schemas, datatype libraries, documents and replacements", "why_tests_cant": "infinitely many schemas, documents and strings; data reach the datatypes through derivatives of choices, exceptions and lists, and white space takes a path of its own", "anchors": ["relaxng-validator/src/lib.rs: Validator::validate_next, text_deriv, att_deriv, the handling of Pat::List and Pat::DatatypeExcept in text_deriv"]}
{"id": "C98", "title": "Character data in mixed content does not matter", "statement": "If, wherever the schema describes an element of some name, its content is mixed (text or mixed { .. }, beside attributes, with alternatives and references), then in an accepted document character data in elements of that name, at any depth and any number of them, may be added, removed and changed, before, between and after child elements, and the document is still accepted.", "quantifier": "all well-formed schemas, documents, names and edits", "why_tests_cant": "infinitely many schemas, documents and edits; mixed content is an interleave with text, whose derivatives go through all of the content model", "anchors": ["relaxng-validator/src/lib.rs: Validator::validate_next, Validator::compile (Pattern::Mixed), text_deriv, start_tag_open_deriv, end_tag_deriv"]}
{"id": "C99", "title": "Nothing that the schema does not describe is accepted", "statement": "In a document that the validator accepts, every element, at any depth, matches by itself an element pattern of its name that stands in the content which the schema describes for its parent; every attribute matches by itself an attribute pattern of its name that stands in the content described for its element; and character data other than white space stands only where the content described has a pattern for it. So a document is refused if an element occurs in it, at any depth, whose name no element of the schema has, or an attribute that no element of that name has with such a value.", "quantifier": "all well-formed schemas, all documents, all elements, attributes and character data in them, at any depth", "why_tests_cant": "infinitely many schemas and documents; one undescribed element or attribute that slips through at some depth, in some order, would be enough to break it", "anchors": ["relaxng-validator/src/lib.rs: Validator::validate_next, start_tag_open_deriv, att_deriv, text_deriv, end_tag_deriv"]}
{"id": "C100", "title": "What the schema requires is there in every accepted document", "statement": "If everywhere the schema describes an element of some name it requires (in every choice, in a member of a group or interleave, in mixed or oneOrMore, through references) an attribute with one of some names, then in a document that the validator accepts every element of that name, at any depth, has such an attribute; likewise every required child element. So a document is refused if a required attribute or child element is missing anywhere in it.", "quantifier": "all well-formed schemas, all documents, all elements in them at any depth, all sets of names", "why_tests_cant": "infinitely many schemas and documents; one element in one place whose requirement is forgotten would be enough to break it", "anchors": ["relaxng-validator/src/lib.rs: Validator::validate_next, start_tag_close_deriv, end_tag_deriv, att_deriv"]}
{"id": "C101", "title": "Lists of records are judged record by record", "statement": "If the root element's content is attributes and any number of records (each exactly one element, of one of several kinds), then a document is accepted exactly if its root tag by itself is and every record alone in the root element is, with nothing else but white space. So accepted documents with the same root tag can be split, filtered and merged, and their records reordered and repeated, and the result is accepted; and if a document is refused, its root tag is wrong, or there is character data among the records, or one of the records is wrong by itself.", "quantifier": "all well-formed schemas with such a root, all documents, all numbers and orders of records", "why_tests_cant": "infinitely many schemas, documents, splittings and orders; the validator's state after one record (memoised derivatives, pattern table, spans) could leak into the judgement of the next", "anchors": ["relaxng-validator/src/lib.rs: Validator::validate_next, start_tag_open_deriv, end_tag_deriv, Patterns::one_or_more, Patterns::group"]}
{"id": "C102", "title": "Where the schema prescribes no order, the order does not matter", "statement": "Content made of interleave, attributes, alternatives, options, mixed, repetitions of what is always one element, and references prescribes no order: if wherever the schema describes an element of some name its content is of this kind, then in an accepted document the child nodes of elements of that name, at any depth and any number of them, may be put in any order, and the document is still accepted.", "quantifier": "all well-formed schemas, documents, names and permutations", "why_tests_cant": "infinitely many schemas and documents, and the number of orders grows factorially; the derivatives of interleave go through each member of it at every step", "anchors": ["relaxng-validator/src/lib.rs: Validator::compile (Pattern::Interleave), start_tag_open_deriv, apply_after, end_tag_deriv, Patterns::interleave"]}
{"id": "C103", "title": "Where the schema allows anything, everything is accepted", "statement": "A definition anything = (element * { anything } | attribute * { text } | text)* matches any attributes and any content, of any depth. If wherever the schema describes an element of some name anything may be in it, then in an accepted document the attributes and the content of elements of that name, at any depth and any number of them, may be replaced by any others, and the document is still accepted; and with the schema element * { anything } every document whose names and references can be resolved is accepted.", "quantifier": "all well-formed schemas, all documents, all names and replacements", "why_tests_cant": "infinitely many documents of any depth and size; one that an open schema refuses would be enough to break it", "anchors": ["relaxng-validator/src/lib.rs: Validator::compile, Validator::validate_next, start_tag_open_deriv, att_deriv, text_deriv, end_tag_deriv"]}

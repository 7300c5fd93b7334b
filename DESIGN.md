# Formal model of ebertolazzi/GenericContainer: design

Technique: an executable model in Lean 4, written function by function from the C++ text, and
theorems about it accepted by Lean's kernel.  §2 (the plan) was written before the proofs; §4
(findings) and the tables are kept up to date as the model grows.

## 1. What is modelled and how

### 1.1 Values

* `GC` (Verif/Model/Basic.lean) is the tree a `GenericContainer` object denotes: tag
  (`m_data_type`) plus payload (`m_data`), one constructor per enumerator of `GC_type`.
* `bool` is `Bool`, `int_type` is `BitVec 32`, `long_type` is `BitVec 64` (two's complement),
  `real_type` is the 64 bit IEEE-754 pattern (`BitVec 64`), `complex_type` a pair of patterns, a
  pointer an opaque 64 bit pattern, `std::string` a list of bytes (any byte, NUL included).
* `std::vector` is `List`, `std::map<string,GC>` an association list in iteration order, matrices
  `nr`, `nc` and the flat column-major data.
* Every finite double is an integer multiple of 2^-1074; the model computes with that integer
  (`F64.scaled`).  `isInteger`, comparison, truncation to an integer and the int64 -> double
  conversion (round to nearest even) are defined on it, so no floating-point axioms are needed.
* Only Model/Heap, Model/HeapOps and Model/HeapCalls represent memory: there a container is a tag and an address,
  payloads are allocated blocks, and an access to a released block is undefined behaviour.

### 1.2 Outcomes

A call of the code can return, throw `std::runtime_error`, have undefined behaviour, or not
terminate.  All four are distinct outcomes in the model (`Out`, `Res`); nothing that is undefined
in the code is given an invented value.  A call that throws still has a resulting container state
(`Res.throw s`), so exception safety can be stated.  Error message texts are not modelled.

### 1.3 References

A C++ call returning a reference (`gc[k]`, `get_real_at(i)`) is modelled by the update it makes
plus the operation performed on the referred element (`withKey g k f`, `withIdx g i f`), i.e. the
reference is used before any other call.  References into a container kept over several calls are
modelled for the C interface (`CApi`: pointers are paths which die when what they point to is
destroyed or moved) and for memory (`Heap`: C120 says which addresses stay good over which calls; nothing is claimed
about a reference into a VECTOR that grows, where the code may or may not relocate).

### 1.4 Layout of the Lean project

* `Verif/Model/*`: the model; every definition cites the lines it models.
* `Verif/Spec/*`: the vocabulary of the statements, independent of the model's helpers.
* `Verif/Lemmas/*`: proofs on the way.
* `Verif/Props/*`: the theorems named `Cxx_...`, one section per property, with examples showing
  that their hypotheses are met.  Suffix `_partial`: the full property is false or only a fragment
  is proved, the comment says what is missing.  `_negation`: a proof that the full property is
  false of the code (concrete or general counterexamples).

| module | contents |
|---|---|
| Verif/Model/Access.lean | Element access: `operator[]`, `operator()`, `exists`, `must_exists`, const `get_*_at` |
| Verif/Model/At.lean | Positional access on a mutable container, mutable vector and matrix getters, push_* |
| Verif/Model/Basic.lean | Values and outcomes |
| Verif/Model/CInterface.lean | The C interface (src/GenericContainerInterface_C.cc, here `ci`) |
| Verif/Model/Collapse.lean | collapse (src/GenericContainerCollapse.cc, `co` below) |
| Verif/Model/Compare.lean | compare_content |
| Verif/Model/CompareText.lean | The text that compare_content returns |
| Verif/Model/Convert.lean | Numeric conversions: `get_value`, `get_as_*`, `get_number*`, `get_complex_number*`, `get_if_exists` |
| Verif/Model/Copy.lean | Copying and merging: `from_gc`, `to_gc`, `operator=`, copy constructor, `merge` |
| Verif/Model/CopyAlias.lean | copyto_vec_*, copyto_mat_* whose destination is inside of the container (src/GenericContainerPromote.cc, `pr` below) |
| Verif/Model/CopyDest.lean | copyto_vec_*, copyto_mat_* with their destination (src/GenericContainerPromote.cc, `pr` below) |
| Verif/Model/CopyTo.lean | copyto_vec_*, copyto_mat_* (src/GenericContainerPromote.cc, `pr` below) |
| Verif/Model/Core.lean | Core of the container: storage, setters, plain getters, counts |
| Verif/Model/Dispatch.lean | The const typed accessors and the setters, listed by type |
| Verif/Model/Docs.lean | YAML and TOML documents |
| Verif/Model/Float.lean | `float`: `get_value<float>`, assignment of a `float` |
| Verif/Model/Heap.lean | Memory: who owns which allocation |
| Verif/Model/HeapArgs.lean | Arguments passed by reference that are in memory too |
| Verif/Model/HeapCalls.lean | The other calls in memory: promotions, push, positional access, get, merge, collapse |
| Verif/Model/HeapFail.lean | Memory that runs out |
| Verif/Model/HeapOps.lean | Programs: variables, calls on them and on what is inside them, end of their lifetime |
| Verif/Model/History.lean | Histories of calls |
| Verif/Model/Json.lean | JSON: src/GenericContainer.cc `string_escape`, src_json_interface/jsonLexer.cc (`lex`), jsonParser.tab.cc (`tab`), jsonParser.yy (`yy`), from_json2.cc |
| Verif/Model/Lua.lean | The Lua interface: src_lua_interface/GenericContainerInterface_lua.cc (`lua`) |
| Verif/Model/LuaSession.lean | The Lua interpreter: src_lua_interface/GenericContainerInterface_lua.cc (`lua`), the stack between the calls |
| Verif/Model/Matlab.lean | The MATLAB interface: src_matlab_interface/GenericContainerInterface_matlab.cc (`ml`) |
| Verif/Model/Names.lean | Type names and classes |
| Verif/Model/Num.lean | Floating point numbers as exact integers |
| Verif/Model/Pointers.lean | Pointers to the data, results in arrays of the caller, indices of other integer types |
| Verif/Model/Print.lean | Listings: `info`, `dump` / `print`, `print_content_types` (src/GenericContainer.cc) |
| Verif/Model/Promote.lean | promote_to_* (src/GenericContainerPromote.cc, `pr` below) |
| Verif/Model/Rapid.lean | Reading JSON with RapidJSON |
| Verif/Model/Ruby.lean | The Ruby interface (src_ruby_interface/GenericContainer_ffi.rb, here `rb`) |
| Verif/Model/Serialize.lean | Binary serialization: src/GenericContainerSerialize.cc (`ser` below) |
| Verif/Model/SerializeLeft.lean | What a throwing de_serialize leaves behind |
| Verif/Model/Support.lean | Text tables: src/GenericContainerSupport.cc (`sup`), src/GenericContainerTables.cc (`tab`) |
| Verif/Model/Support2.lean | `read_formatted_data2` of src/GenericContainerSupport.cc (`sup`) |
| Verif/Model/TableStream.lean | write_table on a stream (src/GenericContainerTables.cc, `tab` below) |
| Verif/Model/Writer.lean | Writing JSON and YAML: src_json_interface/to_json.cc (`tj`), src_yaml_interface/to_yaml.cc (`ty`) |
| Verif/Model/YamlWrite.lean | Writing YAML: src_yaml_interface/to_yaml.cc (`ty`) |
| Verif/Spec/Access.lean | Specification vocabulary: what is stored under a key |
| Verif/Spec/AnyKey.lean | Specification vocabulary: keys with NUL bytes |
| Verif/Spec/COutcome.lean | Specification vocabulary: how a call of the C interface ends |
| Verif/Spec/Cell.lean | Specification vocabulary: cells of a matrix |
| Verif/Spec/Copy.lean | Specification of copying, assignment and merging |
| Verif/Spec/CopyDest.lean | Specification vocabulary: the destination of a copy that throws |
| Verif/Spec/CopyTo.lean | Specification vocabulary: copying into vectors and matrices of one type |
| Verif/Spec/Cursor.lean | Specification vocabulary for the C interface |
| Verif/Spec/Docs.lean | Specification: YAML and TOML documents and the containers that hold their data |
| Verif/Spec/DocsExact.lean | Specification vocabulary: a YAML or TOML document stored over what a container has |
| Verif/Spec/Elems.lean | Specification vocabulary: the elements of a container and numeric widening |
| Verif/Spec/EveryContent.lean | Specification vocabulary: conversion tables |
| Verif/Spec/Fill.lean | Specification vocabulary: what `GC_fill_for_test` leaves |
| Verif/Spec/Float.lean | Specification vocabulary: rounding to `double` and `float` |
| Verif/Spec/Heap.lean | What it means for memory to hold a container |
| Verif/Spec/HeapArgs.lean | What a reference into a container refers to |
| Verif/Spec/HeapCalls.lean | Programs with all the calls, on values |
| Verif/Spec/HeapFail.lean | What is left when memory runs out |
| Verif/Spec/HeapOverlap.lean | `x = y` with `y` inside `x`: when `y` is lost |
| Verif/Spec/HeapStable.lean | Which steps a reference outlives |
| Verif/Spec/Json.lean | Specification: JSON texts and the trees they stand for |
| Verif/Spec/JsonLoose.lean | Specification: the texts that the JSON reader of from_json2 takes, and what they stand for |
| Verif/Spec/Left.lean | Specification vocabulary: what is left after a call that throws |
| Verif/Spec/Listing.lean | Specification: the listing of a container, line by line |
| Verif/Spec/Lua.lean | Specification vocabulary: the Lua value that represents a container |
| Verif/Spec/LuaHistory.lean | Specification vocabulary: sessions with the Lua interpreter |
| Verif/Spec/LuaList.lean | Specification vocabulary: what a Lua list of any mixture of values becomes |
| Verif/Spec/LuaRoom.lean | Specification vocabulary: the places a value takes on the Lua stack |
| Verif/Spec/Matlab.lean | Specification: MATLAB values and containers |
| Verif/Spec/MatrixRef.lean | Specification vocabulary: references to matrices and to their cells |
| Verif/Spec/Number.lean | Specification vocabulary: the number stored in a container |
| Verif/Spec/Overlay.lean | Specification: a container laid over another one |
| Verif/Spec/Packed.lean | Specification vocabulary: what a vector of containers collapses to |
| Verif/Spec/Pieces.lean | Specification vocabulary: the text written for a container, piece by piece |
| Verif/Spec/Pointers.lean | Specification vocabulary: pointers to the data |
| Verif/Spec/Rapid.lean | Specification: what `from_json` makes of a JSON document |
| Verif/Spec/RapidWrite.lean | Specification: containers whose JSON text is RFC 8259 |
| Verif/Spec/Report.lean | Specification: the report on the first difference of two containers |
| Verif/Spec/Rfc.lean | Specification: JSON texts as defined by RFC 8259 |
| Verif/Spec/Ruby.lean | Specification vocabulary for the Ruby interface |
| Verif/Spec/Same.lean | Specification vocabulary: equality of containers |
| Verif/Spec/Sized.lean | Specification: vectors and matrices of a given size |
| Verif/Spec/Table.lean | Specification of the text tables: pieces of a text, words, lines |
| Verif/Spec/Table2.lean | Specification of tables with parameters (`read_formatted_data2`) |
| Verif/Spec/TableRead.lean | Specification: what reading a text table stores, for every text and every container |
| Verif/Spec/TableStream.lean | Specification vocabulary: a table written cell by cell |
| Verif/Spec/Texts.lean | How a complex number and a cell of a table are written |
| Verif/Spec/TomlExact.lean | Specification vocabulary: what a container is after to_toml and from_toml |
| Verif/Spec/Tree.lean | Specification vocabulary: predicates on container trees |
| Verif/Spec/Values.lean | Specification vocabulary: the values a container can hold |
| Verif/Spec/View.lean | Specification vocabulary: the data of a container, however it is packed |
| Verif/Spec/Wire.lean | Specification vocabulary for serialization |
| Verif/Spec/WireRead.lean | The binary format as it is read |
| Verif/Spec/Writer.lean | Specification: the document that describes a container |
| Verif/Spec/Yaml.lean | Specification: YAML texts and the documents they stand for |


## 2. Properties and plan

Shapes: RT = round trip, INV = invariant by induction over operations, REF = refinement to an
abstract specification, DEC = decision logic.  "(F)" marks properties that are false as stated; for
these there are theorems proving the negation, plus `_partial` theorems on the fragment where they
hold.  From C55 on there are exact characterisations ("if and only if", or a specification that
determines the result) which replace properties that turned out to be false.

| id | property | modelled | how it is proved | status |
|---|---|---|---|---|
| C01 | Binary serialization round trip | serialize, de_serialize on byte lists | RT, structural induction on the tree (F: MAT_COMPLEX falls through, pointers not consumed, NUL bytes); exact version C55 | partial |
| C02 | mem_size is exact | mem_size vs serialize | structural induction, exact size (F: pointers, complex matrices) | partial |
| C03 | serialize never writes past the buffer | serialize with bounded buffer | structural induction; UB outcome for writes out of the buffer (F: MAT_COMPLEX) | partial |
| C04 | Serialized form identifies the container | serialize | simultaneous structural induction on two trees | proved |
| C05 | de_serialize is safe on arbitrary bytes | de_serialize with UB for out-of-buffer reads | (F) negation: every truncation of every binary form; what is returned is well formed | partial |
| C06 | Copy construction is faithful | from_gc / to_gc | structural induction (F: NUL in keys); exact version C57 | partial |
| C07 | Assignment replaces the old content | from_gc onto arbitrary content | (F) for maps and empty vectors; exact version C56 | partial |
| C08 | set_* then get_* returns what was stored | set_*/get_* | case analysis over all previous contents (F for empty vectors); exact version C58 | partial |
| C09 | Typed read access is type safe | const getters | DEC | proved |
| C10 | Integer conversions are exact or throw | get_value instances | DEC + arithmetic on F64 (F for long -> int and subnormals); exact version C59 | partial |
| C11 | Number reads preserve the value | get_number etc. | arithmetic: exactness of int -> double | proved |
| C12 | Matrix cells are independent | mat_type | index arithmetic with 32 bit wrap (F when rows*cols wraps) | partial |
| C13 | Matrix index checking | mat_type, get_*_at(i,j) | (F) only the flat index is checked | partial |
| C14 | push_* appends | push_* | case analysis, histories by induction (F on the empty container) | partial |
| C15 | Promotion preserves values | promote_to_* | case analysis + list induction (F: several) | partial |
| C16 | copyto_* copies faithfully | copyto_* | list induction (F: range) | partial |
| C17 | collapse preserves the data | collapse | structural induction (F) | partial |
| C18 | collapse is idempotent | collapse | structural induction | proved |
| C19 | Map access laws | map access | sorted association list; histories by induction (F: NUL in keys) | partial |
| C20 | get_if_exists contract | get_if_exists | DEC (F for bool with a field list) | partial |
| C21 | must_exists and alternative keys | must_exists, get_map_* | DEC, induction on the list of keys (F: NUL in keys) | partial |
| C22 | merge semantics | merge | REF to key-wise override (F); exact version C56 | partial |
| C23 | compare_content decides equality | compare_content | (F) divergence and union misuse; every answer is right | partial |
| C24 | Element counts agree with the content | counts | DEC | partial |
| C25 | Containers stay well formed | all mutators | INV over histories of API calls | proved |
| C26 | Failed calls leave the container usable and unchanged | all mutators | DEC (F for some) | partial |
| C27 | Positional access grows the vector and keeps the rest | mutable get_*_at | case analysis (F for some) | partial |
| C28 | Const positional access is range checked | const positional access | case analysis (F for get_number_at) | partial |
| C29 | String escaping is reversible | string_escape, lexer string state | RT by list induction (F: BEL, VT, non UTF-8) | partial |
| C30 | The JSON parser builds the document tree | Bison tables and actions | REF: parser run over the token list of every document (F: nested arrays, repeated keys) | partial |
| C31 | JSON integers are classified and read exactly | set_integer | DEC + decimal arithmetic (F beyond 64 bit) | proved |
| C32 | The JSON lexer always terminates and consumes input | lexer, parser | termination and progress by induction on the input (F: trailing blanks) | partial |
| C33 | C interface cursor discipline | C interface | INV over call sequences (F: several) | partial |
| C34 | C interface containers are isolated | C interface | INV over call sequences (F: GC_delete of the selected one) | partial |
| C35 | Tokenizer | tokenizer | REF to maximal runs (F: CR/LF) | partial |
| C36 | Table reader shape | table reader | REF (F: last line) | partial |
| C37 | Lua export is stack neutral | GC_to_lua stack effect | structural induction (F for VEC_BOOL) | partial |
| C38 | Type names and tags are unambiguous | type tables | finite case analysis on an enumeration (the full domain) | proved |
| C39 | clear empties the container | clear | DEC | proved |
| C40 | No storage is leaked or freed twice | memory model of ownership | INV over programs (F: self assignment) | partial |
| C41 | Packed text table layout | write_table | REF (F: empty tables) | partial |
| C42 | TOML/YAML integers keep their value | YAML/TOML integer import | DEC, list induction (F for TOML arrays) | partial |
| C43 | Reading by key through a const container | const key access | DEC (F: operator[] const inserts an absent key) | partial |
| C44 | A written table can be read back | write_table, read_formatted_data | RT, list induction | proved |
| C45 | References to scalars | get_bool ... get_string (mutable) | DEC over all contents | proved |
| C46 | free_pointer is only for pointers | free_pointer | DEC | proved |
| C47 | Text form of the keys | get_keys | REF, list induction | proved |
| C48 | Values computed by Lua reach the container | lua_to_GC | DEC, induction over the traversal (F: ranges) | partial |
| C49 | A YAML or TOML document is read whole | from_yaml, from_toml | structural induction over documents (F: stale content) | partial |
| C50 | to_toml followed by from_toml gives the data back | to_toml, from_toml | RT, structural induction (F: several) | partial |
| C51 | References to packed vectors | get_vec_* references | REF over all updates | proved |
| C52 | References to matrices | get_mat_* references | REF over all updates (F) | partial |
| C53 | print writes exactly the listing of the container | dump (print), operator<< of vectors and matrices | REF to a list of lines, structural induction | proved |
| C54 | to_json writes JSON that says what is in the container, and from_json2 reads it back | to_json | REF: text is a JSON document, RT through the parser (F: several) | partial |
| C55 | Which containers survive serialization | serialize, de_serialize | if and only if, both directions by structural induction | proved |
| C56 | Exactly what is left after an assignment or merge | from_gc, to_gc, merge | REF to the overlay of trees, with uniqueness | proved |
| C57 | Exactly which containers are copied faithfully | copy | if and only if, structural induction | proved |
| C58 | Exactly what a setter leaves | set_*/get_* | case analysis over all values and previous contents | proved |
| C59 | Exactly what the integer reads return | get_value instances | functional specification on the stored number; arithmetic on F64 | proved |
| C60 | Exactly which cell m(i,j) reaches | mat_type::operator() | index arithmetic modulo 2^32 | proved |
| C61 | Exactly which tokens are returned | tokenizeString | REF to maximal runs, exact | proved |
| C62 | Exactly what serialize does with a buffer | serialize, mem_size | structural induction, both directions | proved |
| C63 | Exactly which keys are headings | regular expression of dump and print_content_types | greedy match against a declarative form, both directions | proved |
| C64 | print_content_types shows types, keys and sizes only | print_content_types | REF to a list of lines; relational induction | proved |
| C65 | The base in which the stream writes integers after print | dump with the sticky hex flag | structural induction | proved |
| C66 | What info says | info | case analysis, exact text | proved |
| C67 | The prefix is in front of every line, the indent at every level | dump | from C53; refuted with a counterexample for matrices and for indent below the first level | partial |
| C68 | Printing again gives the same text | dump with the sticky hex flag | from C65; refuted with pointers | partial |
| C69 | to_yaml writes YAML that says what is in the container, and from_yaml reads it back | Model/YamlWrite (all of to_yaml, with the state of the stream), Model/Docs; Spec/Yaml: a part of YAML 1.2 as an inductive grammar with indentation | mutual induction on the container for the text; uniqueness of the document of a text by induction on its derivation; round trip through the data tree | partial |
| C70 | from_json accepts exactly the JSON texts | RapidJSON's reader byte by byte (blanks, strings with escapes and surrogates, numbers with the 32/64 bit classification, arrays, objects), decode_json | induction on the grammar both ways: every RFC 8259 text is accepted with its value, every accepted text is one; fuel never runs out | proved |
| C71 | from_json stores the data of the document | decode_json, set_vector, set_map, collapse | induction on the document; the exact tree handed to collapse, then the preservation theorem of C17 through the tree of YAML nodes | partial |
| C72 | JSON integers keep their value | ParseNumber, the number flags of Value, decode_json | exact formula for every literal (C72_integers); value theorem outside of the two bad ranges; refutation on the whole of them | partial |
| C73 | to_json and from_json round trip | the writer of C54 and the reader of C70 | strict version of the writer's invariant (Lemmas/RapidWrite), parts of the document against parts of the data | partial |
| C74 | Tables read by column name: exactly what is stored | `Model/Support2.lean` on the stream of `Model/Support.lean`: `skipComments2`, `columns2`, `pushRow2`, `readRows2`, `read_formatted_data2`; columns are entries of a map | `C74_table` is exact for every text: the reader equals a function on the lines `textLines`, by induction on the lines; `C74_columns` for distinct names; consequences `C74_last_line`, `C74_comment_header`, `C74_twice` | proved |
| C75 | Parameters in comment lines | `parLine`, `trimBlanks` in `Model/Support2.lean`; specification `parOf`, `parsOf`, `linesRead` in `Spec/Table2.lean` | `C75_parameters`: the model of a line equals `parOf` (`parLine_eq`, `trimBlanks_eq`), the fold over the lines gives the last value of each name | proved |
| C76 | What a container gets from a MATLAB value | `Model/Matlab.lean`: a MATLAB value is a tree `Mx`; `fromMx` with `mx_to_vec`, `fromSparse` | `C76_from_matlab`: by mutual induction on the value, `MxHolds` determines the container; `C76_integers`: which integers keep their value | partial |
| C77 | What MATLAB gets from a container | `toMx`, `to_mxArray` in `Model/Matlab.lean` | `C77_to_matlab` by mutual induction against `Shown`; `C77_empty_map`: an empty map inside is undefined behaviour, and nothing else is; `C77_overloads` for to_mxArray | proved |
| C78 | From a container to MATLAB and back | `mxForm`, `mxNormal` in `Spec/Matlab.lean` | `C78_round_trip` composes both directions; `C78_same` decides the fixed points; `C78_settles`; `C78_numbers` | proved |
| C79 | From MATLAB to a container and back | `MxKept` in `Spec/Matlab.lean` | `C79_kept`: if and only if, by mutual induction on the value | proved |
| C80 | Pointers to the stored data | get_*_pointer, get_pointer, get_pointer_at as an array and a write to it | every type against PointerTo; refuted for get_pointer_at on vectors of pointers | partial |
| C81 | Copies to the caller's memory | getColumnTo, getRowTo, get_complex_number2, get_complex_number_at2 | from C12, position by position | proved |
| C82 | Indices of other integer types | castIndex and the seven templates | equal functions for 0 ≤ i < 2^32; refuted for -1 (undefined behaviour) and from 2^32 on | partial |
| C83 | Reading and writing floats | F32 bit by bit: ofF64, ofInt, toF64, get_value_float, assign_float | rounding proved nearest against all floats (rne, round_near); round trip from exact widening | proved |
| C84 | Loading a Ruby object | Ruby code as functions on the C interface model: fromHash, addToVector, fromVector, fromMixedHash, load | induction over the object, with the cursor and everything below it as invariant (At, Loaded), against image | proved |
| C85 | Reading a container from Ruby | toHash, toVector, toMixedHash with the loop over GC_get_next_key as an unbounded loop | induction over the container against value; the loop gets an empty key for ever, because GC_get_next_key gives no null pointer | proved |
| C86 | Ruby objects that come back | load and get_data one after the other | equivalence with Rb.Back by induction over the object (image_back), on top of C84 and C85 | proved |
| C87 | Exactly what compare_content reports | compareText, compareTextL, compareTextM, compareVecText, compareMatText (cc:407-584) | specification as a path to the first difference (Reached) and the line told there; induction on the path and on the first container | proved |
| C88 | Exactly which texts survive escaping and reading as JSON | string_escape, the lexer, the parser, from_json2 | induction over the text; the lexer is shown to accept exactly a grammar of string bodies | proved |
| C89 | Exactly what from_json2 stores | the lexer, the LR tables and driver of the parser, the semantic actions, from_json2 | both directions: the lexer accepts exactly a token grammar, the parser exactly the documents, and the actions leave a tree defined by recursion on the document | proved |
| C90 | Making a vector or a matrix of a given size | set_vec_X(n), set_mat_X(nr,nc), set_vector, set_map, mat_type::resize | case split on the previous content; element-wise statement about resize | proved |
| C91 | Exactly what promotion does | promoteTo, promote_to_vector | independent table (accepted, landing, wrongMember) and conversion inType; cases on both types, lemmas on the fill loops | proved |
| C92 | Exactly what push does | push_* | independent table (accepted, appended); cases on both contents using C91 | proved |
| C93 | Exactly what positional write access does | get_*_at (non const), refAt, checkResize | specification onVector/onContainers; cases on the content | proved |
| C94 | Exactly what copyto_* does | copyto_vec_*, copyto_mat_* | specification gather over per-element conversions, columnsOf; induction on the elements | proved |
| C95 | Exactly what the counts and get_number_at give | get_num_elements, num_rows, num_cols, get_number_at, get_complex_number_at | cases on the content against elems | proved |
| C96 | Access by keys that contain NUL | exists, existsAny, withKey, withKeyChecked, key_c, call_key_c, get_map_key, get_map_path, get_map_bool, get_if_exists_*, erase, must_exists, call_keys_c, get_map_keys | lookup specification field with beforeNul; sorted map lemmas | proved |
| C97 | Exactly what read_formatted_data stores | read_formatted_data, readRows, pushRow, skipComments, Stream.getline, tokenize | table of a text defined without the loops (tableIn); induction on the lines delivered | proved |
| C98 | Exactly what references to matrices and cells give | get_mat_*, get_*_at2, refAt2 | independent table (matAccepts, cellAccepts, landing, wrongMember) over C91 | proved |
| C99 | Exactly what collapse() does | collapse over all element types, with the element loop and its exceptions | induction over the elements; the maximum of the types and the equality of the counts are characterised independently; columns by C94 | proved |
| C100 | Exactly the text to_json and to_yaml write, addresses included | toJson and toYaml of the model with the base of the stream as state | The text as a list of pieces (Spec/Pieces), induction over the tree; counting the letter x for the second writing | proved |
| C101 | Exactly the text print writes, addresses included, and when it is the same the second time | dump of the model with the base of the stream as state | The text as a list of pieces (Spec/Pieces), induction over the tree; counting the letter x for the second printing | proved |
| C102 | How deep a container may be to go through the Lua interpreter | `pushGC`, `readTable` (Model/LuaSession: the conversions with the places of the stack counted) | `C102_write`: equal to the conversion without a limit if `luaNeed` places are free, undefined otherwise (tree induction); `C102_read` the same for tables (mutual induction); `C102_depth`: nested maps, sharp bound | proved |
| C103 | The Lua interpreter can be used again and again | `LuaM` (global variables and stack), `LuaM.global_to_GC`, `LuaM.execute`; Lua programs are a parameter | `C103_table`, `C103_execute`: any number of calls; refuted for scalars (`C103_scalar_negation`: exactly the number of free places), missing variables and failing programs, with the exact number of calls that are defined | partial |
| C104 | A container sent to Lua comes back | `LuaM.GC_to_global`, `LuaM.global_to_GC` | `C104_round_trip_partial` for the containers described by `LuaBack` (Spec/LuaRoom) with the exact room needed; refuted for vectors of booleans (the variable disappears), empty lists and maps (come back empty), complex numbers and matrices (come back as nothing) | partial |
| C105 | Calling a Lua function | `LuaM.call`; functions are a parameter (`LuaWorld.app`) | `C105_call_partial` for `LuaBack` arguments and results a container can hold, with room on the stack; `C105_checked`; refuted for a vector of booleans as argument | partial |
| C106 | Exactly what from_yaml and from_toml do | `from_yaml`, `from_toml` (Model/Docs); the parsers are parameters (document tree, or none) | `C106_yaml`, `C106_toml`: equal to collapse of `yamlOver`/`tomlOver` (Spec/DocsExact), mutual structural induction; `C106_refused`, `C106_never_throws` | proved |
| C107 | Sessions of any length with the Lua interpreter | The calls as steps of a session (LuaCall.step, LuaCall.session); Lua programs are parameters | Induction over the session | proved |
| C108 | Exactly what comes back from TOML | `to_toml`, `from_toml` (Model/Docs); the text between is not modelled | `C108_back`: equal to collapse of `tomlBack` (Spec/TomlExact), mutual structural induction; `C108_over` | proved |
| C109 | Exactly what a failed copy leaves in the destination | `copyto_vec_*`, `copyto_mat_*` with the destination as a state, also after a throw | induction on the elements and on the columns | proved |
| C110 | A matrix stays consistent through a failed copy | as C109 | the sizes of the columns before the failure, by induction; a refused content as counterexample | partial |
| C111 | Exactly what write_table writes, also when an exception ends it | the four `write_table*` functions on a stream (text and pending width), Model/TableStream | induction on the fields of a row and on the rows; `C111_result` ties them to the functions of C41 | proved |
| C112 | Exactly what a failed call leaves in the container | all calls of `Op` (Model/History), `Left` in Spec/Left | induction on the call; C26, C96, C98 for the single calls; collapse by mutual structural induction | proved |
| C113 | Exactly what de_serialize does with arbitrary bytes | `de_ser`, `de_serialize`, `de_serialize_vec` (Model/Serialize); `Record`, `Records`, `KeyRecords` in Spec/WireRead | both directions: induction on the derivation of `Record` gives the call for all large bounds, induction on the bound gives the derivation | proved |
| C114 | No call leaks, frees twice or reads released storage | the tagged union with its raw pointers in a memory of blocks; promotions that put the old payload aside and delete it (Model/HeapCalls.lean); collapse and merge as loops over blocks in memory | each call is shown to take a tree that owns its blocks to the tree the value model gives, changing only its own blocks (CallOk); induction on the program | proved |
| C115 | Running out of memory leaves containers that can be destroyed | The memory model of C40 with a `new` that may fail (Model/HeapFail.lean): which allocations fail is an arbitrary function of the allocation. | Refuted twice: the tag is written before `new`, so that a failing `new` leaves a container that cannot be destroyed; a copy constructor that fails half way loses what it had allocated.  The part about the other containers is proved, by the induction of C40 carried over to the functions that may fail.  C116 has exactly what is left. | partial |
| C116 | Exactly what running out of memory leaves | As C115. | Each function with failing allocations is compared with the one that has enough memory: same outcome, or a memory that agrees with one in which the missing payload were there.  From that, destruction is `ub` exactly for the container with the missing payload. | proved |
| C117 | What a Lua list of any mixture of values becomes | push_vec_element and lua_table_to_GC over the get_*_at calls | induction on the list from its end, with an invariant that tells the container reached from the values read | proved |
| C118 | get_pointer_at, exactly | get_pointer_at for reading and writing, operator[] underneath | case analysis on the content; growth from the specification of check_resize | proved |
| C119 | How every call of the C interface ends | the C interface and the C++ calls underneath it | invariant of the cursor over all call sequences; exact results of the C++ calls for every content (C91-C98) | proved |
| C120 | References that stay good | containers as objects in memory, all calls of C40 and C114 | every call changes only its container and the blocks that belong to it; what lies outside a container is disjoint from them; induction over the program | proved |
| C121 | What GC_fill_for_test leaves, whatever was there before | Model/CInterface (fillOps, Explorer.onRoot, Call.run), Model/History (step) | the calls are sorted by the element they are for, each element's calls evaluated for a symbolic old element; keys by mfind/mset lemmas; reachable states have names with valid distinct addresses | proved |
| C122 | Assignments between a container and a part of it | Model/Heap, HeapOps (fromF, resizeF, St.step) | more fuel does not change a run; induction on the fuel: each inner copy is again a container copied into a part of it, the copies before it succeed by fromF_spec; the others by the specification of clear and resize | proved |
| C123 | Setters and push calls whose argument is a reference into a container | Model/HeapArgs (setArgF, backArgF, pushComplexF, pushStringF, St.setFrom, St.pushFrom) | the state after a program by C114; the argument's payload is in the blocks of x or apart from them; then the specifications of clear, allocate, resize and the promotions | proved |
| C124 | merge between a container and a part of it, or itself | Model/HeapCalls (mergeF, St.xstep), Model/Heap (fromF, mapLoop) | a merge of two MAPs in memory is the assignment of one to the other: then the results of C122, after a program by C114 | proved |
| C125 | Copying a container to a vector or matrix that is part of it | Model/CopyAlias (loopAt, vecAt, copyto_vec_string_at, colsAt, matAt): every read is made from the container with the current destination in it | induction over the turns of the loops; the element the destination is in is refused whatever is in the destination; relation to Model/CopyDest | proved |


## 3. Trusted base

### 3.1 Lean

Lean 4.33.0's kernel.  No axioms of our own, no `sorry`, no `native_decide`, no `bv_decide`.
Mathlib is used for a few tactics in some lemma files only (`ring`, `linarith`, `tauto`).  Axioms of
every theorem named in MANIFEST.json, found with `#print axioms`: §3.4.

### 3.2 The reading of the C++ text

The correspondence between the C++ text and the Lean definitions is by reading.  C++ semantics
assumed: `unsigned` and `int` of 32 bits, `int64_t` long, `double` = IEEE-754 binary64 with
round-to-nearest-even, `float` = binary32 likewise (a double beyond the largest float becomes infinity; a NaN stays a
NaN), conversion of an out-of-range integer to a signed type modulo 2^n,
conversion of a double out of range undefined, reading an inactive union member undefined,
`operator[]` of `std::vector` out of range undefined, `front()` of an empty vector undefined,
`*end()` of a string undefined.

### 3.3 Simplifications and assumptions, by part

* Everywhere but in C115 and C116: memory never runs out (`std::bad_alloc` is not modelled); locale "C"; no threads (the
  library has none); error texts are not modelled.
* Core, access: a `string_view` argument that the code uses through `data()` is followed by a NUL
  byte; `std::vector<GC>` growth keeps the values (proved in the memory model for well formed
  containers in `Heap`, not assumed there).
* copy, merge: source and destination do not overlap (overlap is treated in `Heap`, C40, C122 and C124).
* copyto_*: Model/CopyTo has no destination after a throw; Model/CopyDest has it, and agrees with Model/CopyTo on the
  outcome (C109).  In both the destination is not part of the container.
  Model/CopyAlias has destinations that are part of the container (C125).
* compare_content: Model/Compare reduces the returned text to empty / non-empty; Model/CompareText has the text, and the two
  agree (C87).
* serialize: `&s.front()` of an empty string is the address of its NUL; computing a pointer outside
  of the buffer without accessing it is not reported.
* tables: `atof`, `strtod`, decimal form of a double are parameters; `getline` keeps the line when
  the stream is not good; `isspace`, `isdigit` are false for bytes from 0x80 on; in
  Model/Support the text written before a throw is lost; Model/TableStream has it, with the width and the flags of the
  stream (C111).
* JSON: the Bison tables are modelled as they are (jsonParser.tab.cc); error recovery is left out
  because `error()` throws; locations are left out; `strtod` is a parameter.
* C interface: pointers are paths; arrays are lists; the text of GC_dump and
  GC_print_content_types is that of Model/Print; GC_mem_ptr is only an address.
* Lua: Model/Lua reduces the machine to its stack; Model/LuaSession adds the global variables and the room on the stack
  (20 slots, an overflow is undefined).  Tables have no identity; vectors have less than 2^32 elements; what a program or a
  function does is a parameter; a Lua error outside of a protected call is a throw.
* YAML, TOML: the parsers (fkYAML, toml++) and the TOML printer are not modelled: a document is the
  tree of nodes; dates are their printed text; keys are distinct.  For the round trip of C69 the parser is
  assumed to deliver the nodes of the texts of Spec/Yaml (a part of YAML 1.2); that such a parser
  exists is proved (`parser_exists`).
* RapidJSON: the reader as instantiated by `from_json`; a stream is the list of its bytes; the values of the
  `Document` are returned instead of kept on its stack; the conversion of a literal to `double` is a parameter; error codes
  and offsets are left out; the recursion is taken to have stack enough.
* memory: the storage of a `std::vector`/`std::map` belongs to the block of its header; addresses
  are never reused; programs are those of `POp` (C40) and, with all the calls of the interface, of `XOp` (C114).  Model/HeapCalls
  computes the new content of a payload without parts with the functions on values and models what is allocated, put aside,
  released and moved; references kept over calls are the subject of C120, arguments that are such references that of C123, merge between overlapping places that of C124.
* writers: the decimal form of a double is a parameter; the sticky `hex` flag is the only state of
  the stream.
* MATLAB: the calls of the mx library are modelled by what they return for a value of the tree `Mx`; the text of a char
  array has no NUL; function handles and the other classes are one value `other`; the line that to_mxArray writes on the
  standard output is left out; mex_print and the table of types are left out.
* pointers to the data: the pointer is the list of the numbers it may be used for, a write through it an update of the
  container (`PointerTo`); aliasing of two pointers is not modelled.
* Ruby: objects are the tree `Rb` (anything with neither `[]` nor `to_hash` is one value `other`; keys are their `to_s`); ffi
  refuses integers of more than 32 bits and strings with NUL, copies strings it returns, and turns a null pointer into nil; a
  C++ exception that leaves a C function ends the program; `Fixnum` is `Integer`; what `puts` writes, GC_dump, the finalizer
  and get_pointer are left out.
* Not modelled: fkYAML, toml++, Lua itself, the
  examples, the build scripts.

### 3.4 Axioms by theorem

* `Classical.choice, Quot.sound, propext`: `GC.C01_round_trip_partial`, `GC.C01_round_trip_same_memory_partial`, `GC.C02_mem_size_exact_partial`, `GC.C02_mem_size_value`, `GC.C03_no_overrun_partial`, `GC.C03_rest_untouched_partial`, `GC.C04_prefix_free`, `GC.C05_extension_safe_partial`, `GC.C05_result`, `GC.C05_every_truncation_negation`, `GC.C05_short`, `GC.C06_copy_faithful_partial`, `GC.C06_to_gc_faithful_partial`, `GC.C07_assign_succeeds`, `GC.C07_assign_iff_partial`, `GC.C07_assign_other_type_partial`, `GC.C07_assign_negation`, `GC.C10_as_int_partial`, `GC.C10_as_long_partial`, `GC.C10_as_uint_partial`, `GC.C10_as_ulong_partial`, `GC.C11_number_exact`, `GC.C11_long_near`, `GC.C11_nearest`, `Mat.C12_columns_rows_partial`, `GC.C14_push_partial`, `GC.C15_promote_partial`, `GC.C15_promote_negation`, `GC.C15_long_negation`, `GC.C16_vec_int_partial`, `GC.C16_vec_long_partial`, `GC.C16_vec_uint_partial`, `GC.C16_vec_ulong_partial`, `GC.C16_vec_real_partial`, `GC.C16_vec_complex_partial`, `GC.C16_vec_string`, `GC.C16_mat_int_partial`, `GC.C16_mat_long_partial`, `GC.C16_mat_real_partial`, `GC.C16_mat_complex_partial`, `GC.C17_data_partial`, `GC.C17_packs_numbers_partial`, `GC.C17_packs_matrix_partial`, `GC.C17_negation`, `GC.C19_checked_key`, `GC.C19_access_key`, `GC.C19_erase`, `GC.C19_exists`, `GC.C19_history`, `GC.C20_agrees`, `GC.C20_int_partial`, `GC.C20_bool_list_negation`, `GC.C20_bool_list_partial`, `GC.C21_get_map_bool`, `GC.C21_must_exists`, `GC.C21_call_keys`, `GC.C21_with_keys`, `GC.C21_get_map_keys`, `GC.C21_exists_any_partial`, `GC.C21_get_map_key`, `GC.C21_get_map_path`, `GC.C22_merge_map_partial`, `GC.C22_merge_negation`, `GC.C23_answer_partial`, `GC.C23_decides_partial`, `GC.C23_vector_negation`, `GC.C23_equal_negation`, `GC.C25_wellformed`, `GC.C26_unchanged_partial`, `GC.C29_roundtrip_partial`, `GC.C29_control_negation`, `GC.C29_utf8_negation`, `GC.C30_tree_partial`, `GC.C30_shape`, `GC.C30_accepted`, `GC.C30_returns`, `GC.C30_nested_negation`, `GC.C30_nested_witness_negation`, `GC.C30_repeated_key_negation`, `GC.C30_not_cleared_negation`, `GC.C30_number_negation`, `GC.C30_garbage_negation`, `GC.C31_exact`, `GC.C31_exact_element`, `GC.C31_exact_member`, `GC.C31_saturates`, `GC.C32_lexer_partial`, `GC.C32_parser_partial`, `GC.C32_trailing_blank_negation`, `GC.C32_newline_negation`, `CApi.C33_cursor_partial`, `CApi.C33_navigation_partial`, `CApi.C33_write`, `CApi.C33_read`, `CApi.C33_array`, `CApi.C33_empty_array_negation`, `CApi.C33_push_map`, `CApi.C33_push_vector`, `CApi.C33_minus_one_negation`, `CApi.C33_stuck_negation`, `CApi.C33_exception_negation`, `CApi.C33_keys`, `CApi.C33_next_key_negation`, `CApi.C33_keys_lost`, `CApi.C33_fill_negation`, `CApi.C34_isolated`, `CApi.C34_select`, `CApi.C34_delete`, `CApi.C34_unreachable`, `CApi.C34_deleted_negation`, `C35_tokens_partial`, `C35_no_delimiter`, `C35_join_partial`, `C35_negation`, `GC.C36_table_partial`, `GC.C36_shape_partial`, `GC.C36_last_line_negation`, `GC.C36_last_line_example_negation`, `GC.C36_twice_negation`, `GC.C37_push_partial`, `GC.C38_names_distinct`, `GC.C38_names_nonempty`, `GC.C38_tags_distinct`, `Heap.C40_history_partial`, `Heap.C40_no_leak_partial`, `Heap.C40_self_assign_partial`, `Heap.C40_self_assign_negation`, `Heap.C40_assign_from_inside_negation`, `Heap.C40_assign_into_itself_negation`, `GC.C41_returns`, `GC.C41_formatted`, `GC.C41_formatted_matrix_negation`, `GC.C42_yaml_scalar`, `GC.C42_toml_scalar`, `GC.C42_yaml_array`, `GC.C42_toml_array_partial`, `GC.C42_toml_array_negation`, `GC.C42_toml_array_exact`, `GC.C43_const_key_partial`, `GC.C43_const_key_negation`, `GC.C44_roundtrip`, `GC.C47_keys_text`, `GC.C48_number_partial`, `GC.C48_integer_negation`, `GC.C48_array`, `GC.C48_mixed_negation`, `GC.C48_value_partial`, `GC.C49_yaml_partial`, `GC.C49_toml_partial`, `GC.C49_stale_negation`, `GC.C49_stale_key_negation`, `GC.C49_refused_negation`, `GC.C49_mixed_list_negation`, `GC.C50_round_trip_partial`, `GC.C50_empty_negation`, `GC.C50_long_negation`, `GC.C50_complex_negation`, `GC.C51_vector_reference`, `GC.C52_matrix_reference_partial`, `GC.C52_matrix_reference_negation`, `GC.C53_print`, `GC.C53_returns`, `GC.C53_complex`, `GC.C53_cells`, `GC.C54_document_partial`, `GC.C54_returns`, `GC.C54_round_trip_partial`, `GC.C54_number_negation`, `GC.C54_empty_negation`, `GC.C54_key_negation`, `GC.C54_matrix_negation`, `GC.C54_complex_negation`, `GC.C54_pointer_negation`, `GC.C55_survives_iff`, `GC.C55_comes_back`, `GC.C55_survives_vec_iff`, `GC.C56_assign`, `GC.C56_to_gc`, `GC.C56_merge`, `GC.C57_copy_iff`, `GC.C59_signed`, `GC.C59_unsigned`, `C61_tokens`, `C61_all_iff`, `GC.C62_serialize`, `GC.C63_heading_iff`, `GC.C63_heading`, `GC.C64_types`, `GC.C64_no_values`, `GC.C64_not_injective`, `GC.C65_base`, `GC.C66_info`, `GC.C66_titles`, `GC.C66_matrices_alike`, `GC.C67_indent_negation`, `GC.C67_prefix_negation`, `GC.C67_prefix_partial`, `GC.C68_same_text_negation`, `GC.C68_same_text_partial`, `GC.C69_document_partial`, `GC.C69_nested_partial`, `GC.C69_unambiguous`, `GC.C69_faithful_partial`, `GC.C69_round_trip_partial`, `GC.C69_returns`, `GC.C69_empty_negation`, `GC.C69_key_negation`, `GC.C69_complex_negation`, `GC.C69_pointer_negation`, `GC.C70_rejects`, `GC.C70_nul`, `GC.C70_layout`, `GC.C70_returns`, `GC.C71_stores`, `GC.C71_over`, `GC.C71_data_partial`, `GC.C71_negation`, `GC.C71_throw_negation`, `GC.C71_ub_negation`, `GC.C72_integers`, `GC.C72_value_partial`, `GC.C72_negation`, `GC.C73_document_partial`, `GC.C73_round_trip_partial`, `GC.C73_strings`, `GC.C73_empty_negation`, `GC.C73_key_negation`, `GC.C73_long`, `GC.C73_long_negation`, `GC.C74_table`, `GC.C74_columns`, `GC.C74_last_line`, `GC.C74_comment_header`, `GC.C74_twice`, `GC.C75_parameters`, `GC.C76_from_matlab`, `GC.C76_integers`, `GC.C76_dims_negation`, `GC.C76_sparse_negation`, `GC.C76_negation`, `GC.C77_to_matlab`, `GC.C77_overloads`, `GC.C78_round_trip`, `GC.C78_same`, `GC.C78_settles`, `GC.C78_numbers`, `GC.C79_kept`, `GC.C79_changes`, `GC.C81_to_array`, `GC.C83_nearest`, `GC.C83_round_trip`, `GC.C83_complex`, `Ruby.C84_load`, `Ruby.C84_new`, `Ruby.C84_array_again`, `Ruby.C84_hash_again`, `Ruby.C84_raise`, `Ruby.C85_get_data`, `Ruby.C85_ends`, `Ruby.C85_map`, `Ruby.C86_round_trip`, `Ruby.C86_result`, `Ruby.C86_changed`, `GC.C87_agrees`, `GC.C87_report`, `GC.C87_undefined`, `GC.C87_endless`, `GC.C87_no_throw`, `GC.C87_first`, `GC.C88_read`, `GC.C88_lost`, `GC.C88_survives`, `GC.C89_stores`, `GC.C89_returns`, `GC.C89_throws`, `GC.C91_promote`, `GC.C92_number`, `GC.C93_at`, `GC.C93_last`, `GC.C94_integers`, `GC.C94_others`, `GC.C94_matrix`, `GC.C95_number_at`, `GC.C96_reads`, `GC.C96_get_if_exists`, `GC.C96_get_map_bool`, `GC.C96_writes`, `GC.C96_checked`, `GC.C96_const`, `GC.C96_whole`, `GC.C96_checked_keys`, `GC.C97_read`, `GC.C98_reference`, `GC.C98_cell`, `GC.C99_vector`, `GC.C100_json_again`, `GC.C100_yaml_again`, `GC.C100_json`, `GC.C100_yaml`, `GC.C101_print_again`, `GC.C101_print`, `GC.C102_depth`, `GC.C103_table`, `GC.C103_scalar_negation`, `GC.C103_execute_negation`, `GC.C104_round_trip_partial`, `GC.C104_late_bool_negation`, `GC.C104_table_negation`, `GC.C105_call_partial`, `GC.C105_checked`, `GC.C105_vec_bool_negation`, `GC.C106_refused`, `GC.C106_yaml`, `GC.C106_toml`, `GC.C106_never_throws`, `GC.C107_orderly`, `GC.C107_reads`, `GC.C107_littering`, `GC.C107_nothing`, `GC.C108_back`, `GC.C108_over`, `GC.C109_integers`, `GC.C109_others`, `GC.C109_matrix`, `GC.C110_consistent_partial`, `GC.C111_container`, `GC.C112_left`, `GC.C113_result`, `GC.C113_enough`, `GC.C113_unique`, `GC.C113_forever`, `GC.C113_vector`, `Heap.C114_history`, `Heap.C114_no_leak`, `Heap.C115_others_partial`, `Heap.C115_tag_negation`, `Heap.C115_copy_leak_negation`, `Heap.C116_destroy`, `Heap.C116_outcome`, `Heap.C116_new`, `Heap.C116_kept`, `Heap.C116_grow`, `Heap.C116_grow_new`, `Heap.C116_grow_fails`, `Heap.C116_nogrow`, `Heap.C116_grow_clean`, `Heap.C116_copy`, `GC.C117_late`, `GC.C117_left`, `GC.C117_list`, `GC.C117_table_first`, `CApi.C119_outcome`, `Heap.C120_reference`, `Heap.C120_payload`, `Heap.C120_gone`, `CApi.C121_fill`, `CApi.C121_again`, `Heap.C122_into_part`, `Heap.C122_from_scalar`, `Heap.C122_from_other`, `Heap.C122_from_empty`, `Heap.C122_from_cut`, `Heap.C122_from_lost`, `Heap.C122_from_map`, `Heap.C122_from_vector`, `Heap.C122_from_moved`, `Heap.C122_from_nested`, `Heap.C123_set_from_inside`, `Heap.C123_set_own`, `Heap.C123_set_from_elsewhere`, `Heap.C123_push_from_elsewhere`, `Heap.C123_push_own_element`, `Heap.C123_push_own_number`, `Heap.C123_push_from_inside`, `Heap.C123_push_to_map`, `Heap.C124_into_part`, `Heap.C124_self`, `Heap.C124_from_empty`, `Heap.C124_from_map`, `Heap.C124_from_lost`, `Heap.C124_refused`, `Heap.C124_nothing`, `GC.C125_inside`, `GC.C125_inside_never_returns`
* `propext`: `GC.C01_round_trip_negation`, `GC.C02_mem_size_overflow`, `GC.C05_truncated_negation`, `GC.C05_short_vector_negation`, `GC.C05_diverge_negation`, `GC.C08_set_get_negation`, `GC.C09_ck`, `GC.C09_typed_access`, `GC.C10_negation`, `GC.C11_number_same`, `GC.C11_not_number`, `Mat.C12_wrap_negation`, `GC.C13_mutable_negation`, `GC.C13_no_overrun`, `GC.C13_negation`, `GC.C14_push_history`, `GC.C14_push_history_packed`, `GC.C14_push_empty_negation`, `GC.C14_push_string_negation`, `GC.C15_promote_empty`, `GC.C15_refused_negation`, `GC.C15_promote_vector_refused`, `GC.C15_promote_vector_negation`, `GC.C16_map`, `GC.C16_negation`, `GC.C16_uint_refused`, `GC.C16_mat_empty_negation`, `GC.C16_mat_complex_negation`, `GC.C17_mixed_negation`, `GC.C19_nul_negation`, `GC.C20_never_throws`, `GC.C21_exists_any_negation`, `GC.C22_merge_empty`, `GC.C22_merge_not_map`, `GC.C22_merge_into_other`, `GC.C23_real_negation`, `GC.C24_counts_partial`, `GC.C26_negation`, `GC.C28_checked_index`, `GC.C28_number_at_negation`, `GC.C37_vec_bool_in_vector_negation`, `GC.C37_dropped_negation`, `GC.C38_tags_recognised`, `GC.C39_clear`, `GC.C41_negation`, `GC.C43_const_key_throws`, `GC.C45_scalar_reference`, `GC.C46_free_pointer`, `GC.C49_scalar`, `GC.C49_mixed_negation`, `GC.C51_write_through`, `GC.C52_write_through`, `GC.C60_out_of_range`, `GC.C78_changes`, `GC.C80_pointers`, `GC.C80_pointer`, `GC.C81_complex_parts`, `GC.C90_map`, `GC.C95_counts`, `GC.C96_no_map`, `GC.C99_vector_throws`, `GC.C99_map`, `GC.C107_do_file`, `GC.C109_result`, `GC.C110_consistent_negation`, `GC.C118_read`, `GC.C125_own_vector`
* `Quot.sound, propext`: `GC.C02_mem_size_negation`, `GC.C05_announced`, `GC.C05_vec_bool_count`, `GC.C06_copy_negation`, `GC.C08_set_get_partial`, `GC.C08_assign_unsigned_partial`, `GC.C11_number_at`, `Mat.C12_cells_partial`, `GC.C13_mutable_partial`, `GC.C13_mutable_throws_partial`, `GC.C13_checked_partial`, `GC.C13_unchecked_partial`, `GC.C15_promote_vector_partial`, `GC.C17_long_negation`, `GC.C18_idempotent`, `GC.C19_access_other_type`, `GC.C20_list`, `GC.C27_at_partial`, `GC.C27_at_empty`, `GC.C27_at_widening`, `GC.C27_write_read`, `GC.C27_read_partial`, `GC.C27_vector_negation`, `GC.C27_wrap_negation`, `GC.C28_const_at`, `GC.C28_const_at_throws`, `GC.C29_injective`, `GC.C37_count`, `GC.C37_vec_bool_negation`, `GC.C37_vec_bool_in_map_negation`, `GC.C41_layout`, `GC.C41_layout_matrix`, `GC.C48_range_negation`, `GC.C48_scalar`, `GC.C48_index_negation`, `GC.C48_nul_negation`, `GC.C55_comes_back_entry`, `GC.C57_copy_plain`, `GC.C58_set`, `GC.C58_read_back_iff`, `GC.C58_assign_unsigned`, `GC.C60_cell`, `GC.C60_in_range`, `GC.C77_empty_map`, `GC.C80_pointer_at_negation`, `GC.C82_index_partial`, `GC.C82_negative_negation`, `GC.C82_wrap_negation`, `GC.C90_vec`, `GC.C90_matrix`, `GC.C90_columns`, `GC.C90_overflow`, `GC.C91_vector`, `GC.C92_string`, `GC.C98_cell_const`, `GC.C102_write`, `GC.C102_read`, `GC.C103_missing_negation`, `GC.C103_execute`, `GC.C104_vec_bool_negation`, `GC.C104_empty_negation`, `GC.C107_execute`, `GC.C107_no_room`, `GC.C111_columns`, `GC.C111_matrix`, `GC.C111_formatted`, `GC.C111_formatted_matrix`, `GC.C111_width`, `GC.C111_result`, `Heap.C115_same_partial`, `GC.C118_write`, `GC.C125_own_matrix`, `GC.C125_own_matrix_empty`, `GC.C125_inside_matrix`, `GC.C125_column`
* no axioms: `GC.C09_holds_unique`


## 4. Findings

Behaviour of the code that contradicts what a user would rely on; each is a theorem.

* `C01_round_trip_negation`: A pointer reads back as an empty container (4 of 12 bytes consumed), the string `"a\0b"` reads back as `"a"`, and a vector with a pointer in it comes back with other elements.
* `C02_mem_size_negation`: A complex matrix cannot be serialized into the announced 28 bytes: undefined behaviour.
* `C05_diverge_negation`: On these 17 bytes `de_serialize` calls itself for ever, whatever the recursion bound.
* `C05_every_truncation_negation`: Truncation is never detected: for every container that can be read back, every proper prefix of its binary form makes `de_serialize` read outside of the bytes, also when the announced count is the true number of bytes.
* `C05_short_vector_negation`: Announced vector of 5 integers with only one present: read outside of the 12 bytes.
* `C05_truncated_negation`: Fewer than four bytes: always a read outside of the buffer.
* `C06_copy_negation`: Without the restriction on keys the claim is false: the copy of `{"x\0y": 1}` is `{"x": 1}`.
* `C07_assign_negation`: `{x:1} = {}` leaves `{x:1}`, and assigning an empty `vec_int` leaves the old elements.
* `C08_set_get_negation`: Setting an empty `vec_int` over `[1,2]` leaves `[1,2]`; assigning the unsigned number 4294967295 stores the int -1.
* `C103_execute_negation`: **C103**, refuted: every failure of a program leaves a value on the stack; with the stack full the next run is undefined.
* `C103_missing_negation`: **C103**, refuted: asking for a variable that does not exist throws, leaves a value on the stack, and after that many times is undefined.
* `C103_scalar_negation`: **C103**, refuted: every read of a number, boolean or string leaves it on the stack of the interpreter, and with the stack full the next read is undefined.
* `C104_empty_negation`: **C104**, refuted: empty lists and maps come back as the empty container, complex numbers and matrices as nothing.
* `C104_late_bool_negation`: **C104**, lists in which a boolean comes after something else: the list reaches Lua, with every value in its place, but when Lua delivers its entries in order it is not read back.
* `C104_table_negation`: **C104**, lists of numbers, or of strings, with a list or a map behind them: the list reaches Lua, but when Lua delivers its entries in order the numbers and the strings do not come back.
* `C104_vec_bool_negation`: **C104**, refuted: a vector of booleans arrives as nil, so that the variable is gone, and its table stays on the stack.
* `C105_vec_bool_negation`: **C105**, refuted: with a vector of booleans as argument the call fails, whatever the function does.
* `C10_negation`: The full statement is false. A long 2^32 is returned as the int 0; the smallest positive double is returned as 0; the real 2^31 has no defined result as an int.
* `C110_consistent_negation`: **C110** fails for "a matrix that a copy was refused for can still be read": after the refusal it still has two rows and two columns, and none of the four elements.
* `C115_copy_leak_negation`: C115. A copy of a VECTOR, where the payload of the copy is allocated and the storage of its elements is not: the payload stays allocated, and it is reached from no variable.
* `C115_tag_negation`: C115. It is refuted by `x.set_string(s)`, where `x` is anything but a string, as soon as memory is short: the destructor of `x` then releases something that was never allocated.
* `C12_wrap_negation`: With 2^16 rows and 2^16 columns no element is stored and every access throws.
* `C13_mutable_negation`: Writing row 2 of a matrix of 2 rows changes row 0 of the next column.
* `C13_negation`: In a 2 x 3 matrix row 2 does not exist, but `m(2,0)`, `get_real_at(2,0)` and `get_complex_at(2,0)` return the element of row 0, column 1.
* `C14_push_empty_negation`: On an empty container the result does not hold just the pushed value: there is a zero before it; `push_bool` throws.
* `C14_push_string_negation`: A string pushed on any scalar is undefined.
* `C15_long_negation`: Longs over 2^53 are rounded when promoted to real.
* `C15_promote_negation`: The claim is false for the promotions of `badPromotion`: either undefined behaviour or a container of another type.
* `C15_promote_vector_negation`: Every scalar promoted to a vector is read after its storage has been reused.
* `C15_refused_negation`: A widening that is refused (and must not be according to the documentation).
* `C16_mat_complex_negation`: No complex matrix is ever copied.
* `C16_mat_empty_negation`: A vector or matrix without elements: undefined.
* `C16_negation`: The full claim is false: a long in a vector of containers is cut to its low 32 bits, and a real out of range is undefined.
* `C17_long_negation`: A long beyond 2^53 beside a real is rounded.
* `C17_mixed_negation`: A scalar beside a list of one number, or the empty container beside an empty list: the lists and scalars are mixed up.
* `C17_negation`: A complex number beside an integer, or a pointer beside a boolean: collapse() throws.
* `C19_nul_negation`: A NUL in a key breaks the law: `gc["a\0b"] = 2` changes what is stored under "a".
* `C20_bool_list_negation`: The version for `bool` with a list of fields: whatever the content, it never delivers a value. A field holding a bool is skipped, and any other content makes it read an inactive union member.
* `C21_exists_any_negation`: With a NUL in a key, `exists(ks)` holds and `must_exists(ks)` throws.
* `C22_merge_negation`: Merging `{k: {}}` into `{k: {x: 1}}` does not make `k` read `{}`.
* `C23_equal_negation`: C23 is false, in general: for two equal containers the comparison returns only if there is no real number and no non empty packed vector anywhere in them.
* `C23_real_negation`: C23 is false: comparing two reals, equal or not, has undefined behaviour.
* `C23_vector_negation`: C23 is false: comparing a container holding a non empty packed vector with its own copy never ends.
* `C26_negation`: C26 as stated is false. An empty container becomes a MAT_REAL by `get_int_at(2,3)` (any element type does); a vector becomes a matrix by a `get_real_at(i,j)` outside of it; a MAT_REAL becomes complex; get_mat_long makes a MAT_REAL of a VEC_BOOL; a call on `c["a"]` or `c[0]` has replaced the number 5 by then; `collapse()` has packed the first value when it fails at the second.
* `C27_vector_negation`: But reading element `i` of a vector of containers with `get_int_at(i)` (the same holds for the other types) overwrites it with zero and returns zero, whatever was there.
* `C27_wrap_negation`: At index 2^32-1 the growth wraps to no elements, and the access is undefined.
* `C28_number_at_negation`: `get_number_at(i)` and `get_complex_number_at(i)` are not range checked: on every packed vector, matrix or vector of containers, every index past the end reads outside of the storage.
* `C29_control_negation`: BEL and VT come back as a backslash and a letter.
* `C29_utf8_negation`: A byte that is not UTF-8 before the closing quote makes the text be taken for an empty document: nothing is stored and no error is reported.
* `C30_garbage_negation`: Whatever follows a document is ignored when it does not start with a token.
* `C30_nested_negation`: The elements of an array inside an array go to the outer one, behind an empty array.
* `C30_nested_witness_negation`: `[[1],[2]]`
* `C30_not_cleared_negation`: What was in a vector before stays in front of what is read.
* `C30_number_negation`: A text that is just an integer is accepted and leaves the container as it was.
* `C30_repeated_key_negation`: A repeated key: the second value is added to the array of the first, or merged into its object.
* `C32_newline_negation`: **C32** fails for `[1]` with a line feed behind it.
* `C32_trailing_blank_negation`: A document followed by blanks (for instance by a newline): undefined behaviour.
* `C33_empty_array_negation`: C33 fails for an empty array: a vector of the same type keeps its old elements.
* `C33_exception_negation`: On an empty stack the queries throw a C++ exception through the C function.
* `C33_fill_negation`: `GC_fill_for_test` on a container whose cursor is inside it: the cursor dangles, the next call is undefined.
* `C33_minus_one_negation`: `GC_push_vector_position(-1)`: the vector is emptied and then read: undefined.
* `C33_next_key_negation`: `GC_get_next_key` before any `GC_init_map_key`, and after the map is gone: undefined.
* `C33_stuck_negation`: Once the stack of a container is empty (one `GC_pop_head` too many) it stays empty, whatever is called; `GC_reset_head` does not bring it back.
* `C34_deleted_negation`: Deleting the selected container: the calls go on working on it.
* `C35_negation`: C35 as stated is false: a last run that starts with a carriage return is dropped, whatever follows in it.
* `C36_last_line_example_negation`: The text `"x\n1"`: the column has two entries.
* `C36_last_line_negation`: C36 is false for a text whose last line is not terminated: that line (when it is not the header) counts twice. Stated for every such text: the result is that of the text with the line written twice.
* `C36_twice_negation`: C36 is false for a container that already has a table: new entries go after the old ones, and columns get different lengths.
* `C37_dropped_negation`: Complex numbers, matrices and pointers are dropped: they are pushed as nil.
* `C37_vec_bool_in_map_negation`: **C37** fails for a VEC_BOOL in a map: a map whose first entry is a VEC_BOOL cannot be pushed, Lua raises an error.
* `C37_vec_bool_in_vector_negation`: **C37** fails for a VEC_BOOL in a vector: the elements after it end up in its table, the vector is pushed empty below.
* `C37_vec_bool_negation`: **C37** fails for VEC_BOOL: two values are pushed, a nil above the table.
* `C40_assign_from_inside_negation`: C40. `x = y` with `y` inside `x`, of another type than `x` and not a number, a boolean or a pointer: the source is released, then read.
* `C40_assign_into_itself_negation`: C40. `y = x`, where `y` is inside `x`, never ends, whatever the two hold: `y` becomes a vector or a map like `x`, with a part of its own in the place where `y` is in `x`, which is assigned from the part of `x` that `y` is in, and so on.
* `C40_self_assign_negation`: C40. `x = x` reads a payload that has been released as soon as there is a COMPLEX anywhere in `x`.
* `C41_formatted_matrix_negation`: For a matrix the formatted version writes all the headers, also when there are more of them than columns: the header line then has more fields than the rows.
* `C41_negation`: C41 asks nothing of headers or data, but without them write_table reads outside the lists.
* `C42_toml_array_negation`: **C42** fails for every other TOML array of whole numbers: the value of a number that does not fit 32 bits is lost, because the array is stored as a vector of int all the same.
* `C43_const_key_negation`: But reading an absent key of a const map inserts it.
* `C48_index_negation`: **C48** fails for a table with an entry at index 0, or at an index that is no integer: undefined behaviour.
* `C48_integer_negation`: **C48** fails for large Lua integers: the largest one is undefined behaviour, 2^53+1 is stored as 2^53.
* `C48_mixed_negation`: **C48** fails for mixed tables: a boolean after a number throws; what precedes a sub-table is lost, and so is what precedes a named entry.
* `C48_nul_negation`: **C48** fails for strings and keys with a NUL inside: on their own, in an array and under a key they are cut there.
* `C48_range_negation`: **C48** fails for floats outside the range of a long, infinities and NaN: undefined behaviour.
* `C49_mixed_list_negation`: **C49**, refuted: a valid document with a list of a string and a list of numbers is refused, and the container has its data all the same.
* `C49_mixed_negation`: **C49** fails for a scalar beside a sequence of one number: both become columns of a matrix.
* `C49_refused_negation`: **C49** fails for valid documents that collapse() refuses, and for keys that are not strings: the answer is false.
* `C49_stale_key_negation`: A key that the document has not stays, whatever else is read.
* `C49_stale_negation`: **C49** fails for a container that is not empty: an empty mapping or table read into a map, and an empty sequence read into a vector, leave what was there, only collapsed.
* `C50_complex_negation`: **C50** fails for complex numbers, which come back as vectors of two reals, and for matrices, which come back as maps; those of real and of complex numbers are written under the name of the matrices of long.
* `C50_empty_negation`: **C50** fails for an empty container anywhere in the tree, for every such tree and no other: to_toml follows a null pointer. Otherwise it returns a document.
* `C50_long_negation`: **C50** fails for every vector of long with a number that does not fit 32 bits: it comes back as a vector of int with another number in its place.
* `C52_matrix_reference_negation`: The vectors of `badPromotion`: undefined behaviour, or the container is replaced and the call throws.
* `C54_complex_negation`: **C54** fails for complex numbers: what is read back is a string.
* `C54_empty_negation`: **C54** fails for vectors and maps without elements: packed vectors are written as `]` alone, which is refused, the others as nothing at all, which reads as an empty container at the top and is refused as a value.
* `C54_key_negation`: **C54** fails for keys with a quote: they are written as they are.
* `C54_matrix_negation`: **C54** fails for matrices: they are not read back as such, nor as lists of columns; matrices of complex numbers are written between single quotes, which is not JSON.
* `C54_number_negation`: **C54** fails for every int and long written alone: the text is accepted and nothing is read.
* `C54_pointer_negation`: **C54** fails after a pointer, which is written in base 16: integers written later to the same stream are in base 16 too, so that the text is not JSON.
* `C67_indent_negation`: **C67** as a user expects it ("nested elements are indented by `indent`") is refuted: below the first level the text given is ignored.
* `C67_prefix_negation`: **C67** as documented ("prefix: string to be prepended to any field") is refuted: the rows of a matrix do not get the prefix.
* `C68_same_text_negation`: **C68** as a user expects it ("printing a container does not change how the stream writes other numbers", and so twice the same text for the same container) is refuted: after a pointer the integers that follow are in base 16, those of the same container and those printed later.
* `C69_complex_negation`: **C69** fails for complex numbers: without an imaginary part they are written like reals, and vectors of them are not written as strings.
* `C69_empty_negation`: **C69** fails for containers without elements: packed vectors are written as ` ]` alone, which is no YAML; empty vectors and maps as null, like the container without content.
* `C69_key_negation`: **C69** fails for keys with special characters, which are written as they are: two different maps have the same text.
* `C69_pointer_negation`: **C69** fails behind a pointer, which leaves the stream in base 16: a negative number has the text of another number.
* `C71_negation`: What is not kept: a string is cut at a NUL; keys of a map that was there remain; a key given twice gets both values mixed; a number beside a list of one number becomes a list.
* `C71_throw_negation`: A JSON text can make from_json throw, the container changed.
* `C71_ub_negation`: A JSON text can make from_json convert a number that no int holds to int, which is undefined behaviour.
* `C72_negation`: The integers from 2^31 to 2^32-1, and those from 2^63 to 2^64-1, are stored as negative numbers.
* `C73_empty_negation`: **C73** fails for vectors and maps without elements: the text is refused.
* `C73_key_negation`: **C73** fails for keys with a quote or a line break: they are written as they are, and the text is refused.
* `C73_long_negation`: **C73** fails for the longs from 2^31 to 2^32-1: they come back negative.
* `C76_dims_negation`: **C76**: a numeric array with three dimensions or more, not of one element, leaves the container empty.
* `C76_negation`: **C76**, what is not kept: `uint32(2^31)` becomes negative, and so does `uint64(2^63)`; a logical matrix loses its dimensions; a `string` that needs more than two bytes per character is cut.
* `C76_sparse_negation`: **C76**: a sparse logical matrix with elements is undefined behaviour.
* `C80_pointer_at_negation`: **C80**, false for vectors of pointers: `get_pointer_at` never gives one of their elements; the const version throws, the other one throws after it has removed all of them.
* `C82_negative_negation`: **C82**, false for other indices: with -1 a vector is emptied and an element outside of it is used (undefined behaviour), for every vector of the type of the call, every vector of containers, and every empty container.
* `C82_wrap_negation`: **C82**, false for large indices: with 2^32 + k the calls do what they do with k.


## 5. Testing the theorems

`seeded/LOG.jsonl` lists deliberate edits of the model in a scratch copy, the theorems that failed,
and, when none did, the theorem that was tightened or added because of it.

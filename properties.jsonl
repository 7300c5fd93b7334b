{"id": "C01", "title": "Binary serialization round trip", "statement": "If serialize() of a container a into a buffer succeeds and de_serialize() of that buffer is then called on any container b, the call succeeds, consumes exactly the bytes serialize() wrote, and afterwards b has the same type, the same keys in the same order and the same values as a, at every nesting level.", "quantifier": "every container tree (any depth, width, key set, string content and bit pattern of numbers), every previous content of b, and every tail of bytes after the written ones", "why_tests_cant": "the set of trees is infinite; examples only exercise a few shapes, and the cases that break (complex matrices, pointers, NUL bytes in strings) are exactly the ones nobody thinks of writing", "anchors": ["src/GenericContainerSerialize.cc: GenericContainer::serialize, de_serialize, mem_size"]}
{"id": "C02", "title": "mem_size is exact", "statement": "serialize() into a buffer of n bytes succeeds exactly when n >= mem_size(), and on success it reports and writes exactly mem_size() bytes; a buffer sized with mem_size() is therefore always enough.", "quantifier": "every container tree and every buffer length", "why_tests_cant": "the size formula and the writer are two separate recursive functions over an unbounded type; agreement on samples does not give agreement on all trees", "anchors": ["src/GenericContainerSerialize.cc: mem_size, serialize(int32_t, uint8_t*)"]}
{"id": "C03", "title": "serialize never writes past the buffer", "statement": "serialize() with a buffer of n bytes never writes a byte outside [0,n): it either returns a count <= n or throws.", "quantifier": "every container tree and every buffer length, including lengths that end in the middle of a nested element", "why_tests_cant": "memory safety for all inputs; a test can only show that one overflow did not happen", "anchors": ["src/GenericContainerSerialize.cc: serialize, *_to_buffer"]}
{"id": "C04", "title": "Serialized form identifies the container", "statement": "Two containers of less than 2 GiB in binary form that serialize to the same bytes are equal, and no serialized form is a proper prefix of another one.", "quantifier": "every pair of container trees whose binary form has less than 2^31 bytes (the interface counts bytes in a 32 bit integer), every pair of buffers", "why_tests_cant": "injectivity is a statement about all pairs; collisions cannot be excluded by sampling", "anchors": ["src/GenericContainerSerialize.cc: serialize"]}
{"id": "C05", "title": "de_serialize is safe on arbitrary bytes", "statement": "de_serialize() given any n bytes never reads outside these n bytes: it returns or throws.", "quantifier": "every byte sequence of every length, including truncated and corrupted serializations", "why_tests_cant": "the space of malformed inputs is unbounded; an adversarial length field is enough to break it", "anchors": ["src/GenericContainerSerialize.cc: de_serialize(int32_t, uint8_t const*)"]}
{"id": "C06", "title": "Copy construction is faithful", "statement": "Copy-constructing or assigning a container into an empty one gives a container with the same type, keys, sizes and values at every nesting level, and leaves the source unchanged.", "quantifier": "every source container tree", "why_tests_cant": "needs induction over an unbounded recursive type", "anchors": ["src/GenericContainer.cc: from_gc, to_gc", "include/GenericContainer/GenericContainer.hh: GenericContainer(GenericContainer const&), operator="]}
{"id": "C07", "title": "Assignment replaces the old content", "statement": "After a = b, a is equal to b, whatever a contained before.", "quantifier": "every pair (old content of a, source b) of container trees", "why_tests_cant": "depends on the combination of the previous content with the new one; tests normally assign into fresh containers", "anchors": ["src/GenericContainer.cc: from_gc, allocate_map, allocate_vec_*", "include/GenericContainer/GenericContainer.hh: operator="]}
{"id": "C08", "title": "set_* then get_* returns what was stored", "statement": "After set_X(v) the container has type X and get_X() returns v, whatever it held before; this holds for scalars, strings, vectors (including the empty one) and matrices.", "quantifier": "every type X, every value v and every previous content", "why_tests_cant": "quantifies over all previous contents as well as all values; the previous content matters in the implementation", "anchors": ["src/GenericContainer.cc: set_bool .. set_mat_complex, get_bool .. get_mat_complex, allocate_*"]}
{"id": "C09", "title": "Typed read access is type safe", "statement": "A const typed accessor returns data only when the container holds exactly that type, and throws otherwise; it never returns data of another type and never modifies the container.", "quantifier": "every container and every typed accessor", "why_tests_cant": "the accessor/type table is large and each pair has unboundedly many values", "anchors": ["src/GenericContainer.cc: ck, get_bool/get_int/... const, get_vec_* const, get_mat_* const", "include/GenericContainer/GenericContainer.hh: get_pointer"]}
{"id": "C10", "title": "Integer conversions are exact or throw", "statement": "get_as_int/get_as_uint/get_as_long/get_as_ulong return an integer only if it is mathematically equal to the stored number (bool, int, long, real or complex with zero imaginary part); otherwise they throw.", "quantifier": "every stored number (all 2^32, 2^64 bit patterns, including NaN, infinities, subnormals) and every target type", "why_tests_cant": "2^64 inputs per source type; the failing ones are values outside the target range", "anchors": ["src/GenericContainer.cc: get_value<...>, get_as_int, get_as_uint, get_as_long, get_as_ulong, isInteger, isUnsigned"]}
{"id": "C11", "title": "Number reads preserve the value", "statement": "get_number(), get_complex_number() and get_number_at() return the real number denoted by the stored bool/int/long/real value: exactly for bool, int and real, and exactly for long values of magnitude at most 2^53; any other long is read as the double nearest to it, ties to even.", "quantifier": "every stored numeric value", "why_tests_cant": "2^64 inputs; exactness is a statement about all of them", "anchors": ["src/GenericContainer.cc: get_number, get_complex_number, get_number_at, get_complex_number_at"]}
{"id": "C12", "title": "Matrix cells are independent", "statement": "For in-range indices, writing m(i,j) changes exactly the element later read by m(i,j): every other in-range (i',j') is unaffected; get_column(j) and get_row(i) list exactly m(.,j) and m(i,.).", "quantifier": "every matrix size, every element type, every pair of index pairs", "why_tests_cant": "index arithmetic must be injective for all sizes", "anchors": ["src/GenericContainer.cc: mat_type::operator(), get_column, get_row", "include/GenericContainer/GenericContainer.hh: mat_type"]}
{"id": "C13", "title": "Matrix index checking", "statement": "m(i,j), get_int_at(i,j), get_long_at(i,j), get_real_at(i,j) and get_complex_at(i,j) throw when i >= num_rows or j >= num_cols.", "quantifier": "every matrix size and every pair of unsigned indices", "why_tests_cant": "all out-of-range index pairs, including those that wrap or alias another cell", "anchors": ["src/GenericContainer.cc: mat_type::operator(), get_int_at(i,j), get_long_at(i,j), get_real_at(i,j), get_complex_at(i,j)"]}
{"id": "C14", "title": "push_* appends", "statement": "push_int/push_long/push_real/push_complex/push_bool/push_string on a container adds exactly one element at the end with the pushed value and keeps the previous elements in order (possibly converted to a wider element type denoting the same numbers); on an empty container the result has exactly one element.", "quantifier": "every previous content and every pushed value", "why_tests_cant": "all previous contents (types x lengths x values)", "anchors": ["src/GenericContainer.cc: push_bool, push_int, push_long, push_real, push_complex, push_string"]}
{"id": "C15", "title": "Promotion preserves values", "statement": "promote_to_*() either throws leaving the content unchanged or yields the target type with the same numbers in the same positions.", "quantifier": "every source container and every promotion target", "why_tests_cant": "all source types, sizes and values; type confusion shows only for particular source types", "anchors": ["src/GenericContainerPromote.cc: promote_to_int .. promote_to_mat_complex, promote_to_vector"]}
{"id": "C16", "title": "copyto_* copies faithfully", "statement": "copyto_vec_*(v)/copyto_mat_*(m) either throws or fills v (m) with exactly the stored numbers, in order, with the size of the stored data; the container is unchanged.", "quantifier": "every source container, every target element type", "why_tests_cant": "all source types, sizes and values, including values not representable in the target", "anchors": ["src/GenericContainerPromote.cc: copyto_vec_int .. copyto_mat_complex"]}
{"id": "C17", "title": "collapse preserves the data", "statement": "collapse() turns vectors of homogeneous scalars or of equal-length numeric vectors into packed vectors/matrices holding the same numbers at the same indices, leaves everything else in place, and does not throw.", "quantifier": "every container tree", "why_tests_cant": "recursive over unbounded trees; mixed element types and nesting combinations cannot be enumerated", "anchors": ["src/GenericContainerCollapse.cc: collapse"]}
{"id": "C18", "title": "collapse is idempotent", "statement": "A second collapse() changes nothing.", "quantifier": "every container tree on which collapse() succeeds", "why_tests_cant": "recursive over unbounded trees", "anchors": ["src/GenericContainerCollapse.cc: collapse"]}
{"id": "C19", "title": "Map access laws", "statement": "After gc[k] = v: exists(k) holds, gc(k) reads v, every other key is present and reads as before; after erase(k): exists(k) is false and the other keys are unaffected; get_keys() lists every key exactly once in increasing order.", "quantifier": "every map content, every sequence of insertions and erasures, every key and value", "why_tests_cant": "quantifies over histories and all keys", "anchors": ["src/GenericContainer.cc: operator[](string_view), operator()(string_view), exists, erase, get_keys"]}
{"id": "C20", "title": "get_if_exists contract", "statement": "get_if_exists(field, value) returns true and assigns the stored number/string if the field exists and is convertible to the type of value, and otherwise returns false and leaves value untouched; with a list of fields the first field that matches is used; it never throws.", "quantifier": "every container, every field (list), every requested type and every previous value of the output variable", "why_tests_cant": "all stored contents times all requested types", "anchors": ["src/GenericContainer.cc: get_if_exists(string_view,...), get_if_exists(vec_string_type,bool&)", "include/GenericContainer/GenericContainer.hh: get_if_exists template"]}
{"id": "C21", "title": "must_exists and alternative keys", "statement": "must_exists(keys), operator()(keys) and get_map_*(keys) use the first key of the list that exists in the map and throw when none does; exists(keys) tells which of the two happens.", "quantifier": "every container and every list of keys", "why_tests_cant": "all key lists and all maps", "anchors": ["src/GenericContainer.cc: must_exists, exists(vec), operator()(vec_string_type), get_map_*(vec_string_type)"]}
{"id": "C22", "title": "merge semantics", "statement": "After a.merge(b) with b a map: every key of b is present and reads as b's value, every key only in a is unchanged, and no other key appears; merging an empty container is a no-op and anything else than a map throws without change.", "quantifier": "every pair of containers", "why_tests_cant": "all pairs of maps; interaction of old and new values under a key", "anchors": ["src/GenericContainer.cc: merge, from_gc"]}
{"id": "C23", "title": "compare_content decides equality", "statement": "compare_content(a,b) terminates for all inputs and returns the empty string exactly when a and b have the same type, shape and values.", "quantifier": "every pair of container trees", "why_tests_cant": "termination and equivalence over all pairs", "anchors": ["src/GenericContainer.cc: compare_content, compare_vector, compare_matrix"]}
{"id": "C24", "title": "Element counts agree with the content", "statement": "get_num_elements, num_rows and num_cols return the size of the stored data: 0 for an empty container, 1 for scalars, the number of elements of vectors and maps, rows x cols for matrices.", "quantifier": "every container", "why_tests_cant": "invariant over all values and all histories that create them", "anchors": ["src/GenericContainer.cc: get_num_elements, num_rows, num_cols"]}
{"id": "C25", "title": "Containers stay well formed", "statement": "After any sequence of API calls, whether they return or throw, every map has strictly increasing keys and every matrix stores exactly rows x cols elements, at every nesting level.", "quantifier": "every finite history of API calls with arbitrary arguments, including calls that throw", "why_tests_cant": "an invariant over unbounded histories", "anchors": ["src/GenericContainer.cc: set_*, push_*, get_*_at, operator[], erase, merge", "src/GenericContainerPromote.cc: promote_to_*", "src/GenericContainerCollapse.cc: collapse", "src/GenericContainerSerialize.cc: de_serialize"]}
{"id": "C26", "title": "Failed calls leave the container usable and unchanged", "statement": "A call that throws a type or range error leaves the container as it was before the call.", "quantifier": "every container and every throwing call", "why_tests_cant": "all states in which a call fails", "anchors": ["src/GenericContainer.cc: get_*, operator(), push_*", "src/GenericContainerPromote.cc: promote_to_*"]}
{"id": "C27", "title": "Positional access grows the vector and keeps the rest", "statement": "Non-const get_T_at(i) on a vector of T of size n gives access to element i, growing the vector to i+1 with zero elements when needed, keeps the elements below n, and a value written through it is read back by the const accessor; reading an existing element does not change the container.", "quantifier": "every vector, index and written value", "why_tests_cant": "all sizes and indices", "anchors": ["src/GenericContainer.cc: get_bool_at, get_int_at, get_long_at, get_real_at, get_complex_at, get_string_at, operator[](unsigned)"]}
{"id": "C28", "title": "Const positional access is range checked", "statement": "Const get_T_at(i, where), get_number_at(i) and operator()(i) return element i when i is in range and throw when it is not.", "quantifier": "every container and every index", "why_tests_cant": "all sizes and indices, memory safety", "anchors": ["src/GenericContainer.cc: get_*_at const, get_number_at, get_complex_number_at, operator()(unsigned)"]}
{"id": "C29", "title": "String escaping is reversible", "statement": "A string written by to_json()/print() in quoted form and read back by the JSON lexer is the original string.", "quantifier": "every byte string", "why_tests_cant": "all byte strings; the interesting ones contain quotes, backslashes and control characters", "anchors": ["src/GenericContainer.cc: string_escape", "src_json_interface/jsonLexer.cc: yylex", "src_json_interface/to_json.cc"]}
{"id": "C30", "title": "The JSON parser builds the document tree", "statement": "from_json2() on a syntactically valid document stores the tree of the document: objects become maps with the member values, arrays become vectors with the elements in order, scalars keep their value.", "quantifier": "every JSON document tree", "why_tests_cant": "all nestings of arrays and objects", "anchors": ["src_json_interface/jsonParser.yy: GenericContainerWrapper", "src_json_interface/from_json2.cc"]}
{"id": "C31", "title": "JSON integers are classified and read exactly", "statement": "An integer literal in an array or object of a JSON document is stored as int when it fits in 32 bits and as long when it fits in 64 bits, with exactly its mathematical value; larger ones become the nearest 64 bit integer.", "quantifier": "every integer literal of any length, every position in an array, every key", "why_tests_cant": "infinitely many literals, boundaries at 2^31 and 2^63", "anchors": ["src_json_interface/jsonParser.yy: set_integer", "src_json_interface/jsonLexer.cc"]}
{"id": "C32", "title": "The JSON lexer always terminates and consumes input", "statement": "Every call of the lexer terminates, and consumes at least one byte unless the end of input is reached; it never reads past the end of the input.", "quantifier": "every byte sequence", "why_tests_cant": "all inputs including truncated strings and numbers", "anchors": ["src_json_interface/jsonLexer.cc: yylex"]}
{"id": "C33", "title": "C interface cursor discipline", "statement": "For every sequence of C calls the cursor (stack of positions) always points to existing elements of the selected container; every call returns one of the documented codes; a failing navigation call leaves the cursor unchanged; GC_pop_head undoes the matching push.", "quantifier": "every finite sequence of C API calls", "why_tests_cant": "histories are unbounded; dangling positions appear only after particular interleavings", "anchors": ["src/GenericContainerInterface_C.cc: GenericContainerExplorer, GC_push_*_position, GC_pop_head, GC_reset_head"]}
{"id": "C34", "title": "C interface containers are isolated", "statement": "Operations on the selected container do not change any other named container; GC_select switches between them without loss; after GC_delete the name is gone and no call touches the deleted container.", "quantifier": "every finite sequence of C API calls over any set of names", "why_tests_cant": "histories are unbounded", "anchors": ["src/GenericContainerInterface_C.cc: GC_new, GC_select, GC_delete, gc_explorer, gc_active"]}
{"id": "C35", "title": "Tokenizer", "statement": "Splitting a line yields exactly the maximal non-empty runs of non-delimiter characters, in order; no token contains a delimiter and joining the tokens loses only delimiters.", "quantifier": "every line and every delimiter set", "why_tests_cant": "all strings", "anchors": ["src/GenericContainerSupport.cc: tokenizeString"]}
{"id": "C36", "title": "Table reader shape", "statement": "read_formatted_data() stores one header per column and columns of equal length (one entry per data line), or throws when a line has the wrong number of columns.", "quantifier": "every input text", "why_tests_cant": "all texts", "anchors": ["src/GenericContainerSupport.cc: read_formatted_data, read_formatted_data2, get_line_and_skip_comments"]}
{"id": "C37", "title": "Lua export is stack neutral", "statement": "Pushing a container to Lua leaves exactly one value on the Lua stack, a table/number/string/boolean that represents it, for every container.", "quantifier": "every container tree", "why_tests_cant": "all trees; an extra push corrupts the stack only when it occurs in a nested position", "anchors": ["src_lua_interface/GenericContainerInterface_lua.cc: GC_to_lua"]}
{"id": "C38", "title": "Type names and tags are unambiguous", "statement": "Distinct container types have distinct names and distinct serialized tags, and every tag written is recognised when reading.", "quantifier": "every container type", "why_tests_cant": "tables kept in two places must agree for all entries", "anchors": ["src/GenericContainer.cc: to_string(GC_type)", "src/GenericContainerSerialize.cc: serialize, de_serialize", "include/GenericContainer/GenericContainer.hh: GC_type"]}
{"id": "C39", "title": "clear empties the container", "statement": "clear() gives an empty container from any state: type NOTYPE, zero elements, no key exists, every typed const accessor throws, and a following set_*/copy behaves as on a new container.", "quantifier": "every previous content", "why_tests_cant": "all previous contents", "anchors": ["src/GenericContainer.cc: clear, ck"]}
{"id": "C40", "title": "No storage is leaked or freed twice", "statement": "For every history of construction, assignment, set/clear and destruction each allocated block is released exactly once and never used after release.", "quantifier": "every finite history of API calls", "why_tests_cant": "ownership is an invariant over histories; sanitizer runs only cover the executed ones", "anchors": ["src/GenericContainer.cc: clear, allocate_*, from_gc", "include/GenericContainer/GenericContainer.hh: ~GenericContainer"]}
{"id": "C41", "title": "Packed text table layout", "statement": "Every line of write_table() has one field per column in the column order, the first line being the headers.", "quantifier": "every table content", "why_tests_cant": "all sizes", "anchors": ["src/GenericContainerTables.cc: write_table, write_table_formatted"]}
{"id": "C42", "title": "TOML/YAML integers keep their value", "statement": "Integers read from YAML or TOML are stored with exactly their value, as int when they fit in 32 bits and as long otherwise, both as scalars and inside arrays.", "quantifier": "every integer value", "why_tests_cant": "2^64 values", "anchors": ["src_toml_interface/from_toml.cc", "src_yaml_interface/from_yaml.cc"]}
{"id": "C43", "title": "Reading by key through a const container", "statement": "operator[] with a key on a const container returns the stored child or throws; it never modifies the container.", "quantifier": "every container and every key or index", "why_tests_cant": "holds for every container type, key set and key; tests only cover present keys", "anchors": ["src/GenericContainer.cc: operator[](string_view) const, operator()(string_view, string_view) const"]}
{"id": "C44", "title": "A written table can be read back", "statement": "Reading with read_formatted_data() the text that write_table() produced, with the same delimiter, gives the same headers and, column by column and row by row, the numbers as the C library reads them back from their written form, provided headers and written numbers are non empty and contain no delimiter, comment, end of line or NUL character.", "quantifier": "every table of any number of columns and rows, every delimiter set and comment character set", "why_tests_cant": "all sizes and contents", "anchors": ["src/GenericContainerTables.cc: write_table", "src/GenericContainerSupport.cc: read_formatted_data"]}
{"id": "C45", "title": "References to scalars", "statement": "get_bool, get_int, get_long, get_real, get_complex and get_string on a mutable container give a reference to the stored value and change nothing when the container has that type, turn an empty container into one of that type, and throw leaving the container as it was for any other type.", "quantifier": "every container content and each of the six scalar types", "why_tests_cant": "all contents; that nothing else changes is a statement about every value", "anchors": ["src/GenericContainer.cc: get_bool, get_int, get_long, get_real, get_complex, get_string, ck_or_set"]}
{"id": "C46", "title": "free_pointer is only for pointers", "statement": "free_pointer() empties a container that holds a pointer or nothing, and throws without changing anything for every other content.", "quantifier": "every container content", "why_tests_cant": "all contents", "anchors": ["src/GenericContainer.cc: free_pointer"]}
{"id": "C47", "title": "Text form of the keys", "statement": "get_keys() returns the keys of a map in the order of the map separated by a comma and a blank, with no separator at the ends, and the empty text for other containers; get_keys(vector) returns the same keys.", "quantifier": "every map, any number of keys and any key text", "why_tests_cant": "all sizes and key texts, including empty keys", "anchors": ["src/GenericContainer.cc: get_keys"]}
{"id": "C48", "title": "Values computed by Lua reach the container", "statement": "A value that a Lua script computed (numbers, booleans, strings, arrays, tables with named entries, nested at will) is stored in the container with exactly its data, integers as LONG and other numbers as REAL, arrays as vectors and named entries as maps, whatever the order in which Lua delivers the entries of the tables.", "quantifier": "every Lua value, every nesting, every order of traversal of the tables", "why_tests_cant": "2^64 numbers, unbounded arrays, and lua_next may deliver the entries in any order", "anchors": ["src_lua_interface/GenericContainerInterface_lua.cc: lua_to_GC, lua_table_to_GC, push_vec_element, isInteger64"]}
{"id": "C49", "title": "A YAML or TOML document is read whole", "statement": "After from_yaml or from_toml returned true on an empty container, the container holds exactly the data of the document: the same mappings with the same keys, the same sequences in the same order, the same scalars with the same values; numeric sequences may be packed into vectors and matrices.", "quantifier": "every document tree (any nesting, any number of keys and elements)", "why_tests_cant": "documents are unbounded trees, and packing depends on all elements of a sequence at once", "anchors": ["src_yaml_interface/from_yaml.cc: YAML_to_GC, from_yaml", "src_toml_interface/from_toml.cc: TOML_to_GC, from_toml", "src/GenericContainerCollapse.cc: collapse"]}
{"id": "C50", "title": "to_toml followed by from_toml gives the data back", "statement": "For every container, to_toml writes a document and from_toml on that document gives a container with the same data.", "quantifier": "every container tree", "why_tests_cant": "unbounded trees of twenty kinds of values; each kind is written and read by separate code", "anchors": ["src_toml_interface/to_toml.cc: GC_to_TOML, to_toml", "src_toml_interface/from_toml.cc: TOML_to_GC, from_toml"]}
{"id": "C51", "title": "References to packed vectors", "statement": "get_vec_int/long/real/complex on a mutable container returns a reference exactly when the content widens to that vector type (or the container is empty); the reference shows the same elements as numbers of the wider type, the container then has that type, and what is written through the reference is what the container holds afterwards; otherwise it throws and nothing changes.", "quantifier": "every container, each of the four vector types, and every update done through the reference", "why_tests_cant": "all contents, lengths and updates; an aliasing claim about later reads", "anchors": ["src/GenericContainer.cc: get_vec_int, get_vec_long, get_vec_real, get_vec_complex", "src/GenericContainer.cc: promote_to_vec_int, promote_to_vec_long, promote_to_vec_real, promote_to_vec_complex"]}
{"id": "C52", "title": "References to matrices", "statement": "get_mat_int/long/real/complex on a mutable container returns a reference exactly when the content widens to that matrix type; the reference shows the same elements (a vector as one column) and writing through it changes the container; otherwise it throws and nothing changes.", "quantifier": "every container, each of the four matrix types, and every update done through the reference", "why_tests_cant": "all contents, sizes and updates", "anchors": ["src/GenericContainer.cc: get_mat_int, get_mat_long, get_mat_real, get_mat_complex", "src/GenericContainer.cc: promote_to_mat_int, promote_to_mat_long, promote_to_mat_real, promote_to_mat_complex"]}
{"id": "C53", "title": "print writes exactly the listing of the container", "statement": "print() always returns when matrices are full, and for a container without pointers its text is the listing of the container line by line: each scalar or short vector on the line of its index or key, longer contents on the following lines one level deeper, numbered keys as underlined headings, rows of a matrix at the margin in columns of eight. A complex number is written as its real part, followed, unless the imaginary part is zero or not a number, by + or -, the size of the imaginary part and i; in the first column of a matrix as (re,im); the cells are right justified in eight places, from the second column on in twelve for complex numbers.", "quantifier": "every container tree, prefix and indent", "why_tests_cant": "unbounded trees, all keys and all strings", "anchors": ["src/GenericContainer.cc: GenericContainer::dump", "include/GenericContainer/GenericContainer.hh: print"]}
{"id": "C54", "title": "to_json writes JSON that says what is in the container, and from_json2 reads it back", "statement": "For every container to_json returns, its text is a JSON document with the same booleans, numbers, strings, vectors in the same order, matrices by columns and maps with the same keys, and reading the text gives a container with the same data.", "quantifier": "every container tree and every indentation prefix", "why_tests_cant": "unbounded trees of twenty kinds of values, all strings and all keys", "anchors": ["src_json_interface/to_json.cc: to_json", "src/GenericContainer.cc: string_escape, to_string", "src_json_interface/from_json2.cc: from_json2", "src_json_interface/jsonParser.yy"]}
{"id": "C55", "title": "Which containers survive serialization", "statement": "Serializing a container into a buffer that is large enough and reading the bytes back gives the same container if and only if it contains no pointer, no complex matrix and no NUL byte inside a string or key. Without pointers and complex matrices, what comes back is the container with its strings and keys cut at their first NUL; of entries whose keys become equal the last one wins.", "quantifier": "every container tree of less than 2 GiB in binary form, every sufficient buffer, every previous content of the destination", "why_tests_cant": "an exact characterisation over all trees: no test can show that nothing else is lost", "anchors": ["src/GenericContainerSerialize.cc: serialize, de_serialize"]}
{"id": "C56", "title": "Exactly what is left after an assignment or merge", "statement": "After a = b, b.to_gc(a) or a.merge(b), a holds b laid over what it held: scalars, strings, matrices and non-empty vectors replace; an empty vector leaves a vector of the same kind as it was; elements of vectors are laid over the elements at the same index; values of maps over the values of the same key, keys only in a stay. This determines the result. merge of anything but a map (or an empty container) into anything but a map (or an empty container) throws and changes nothing.", "quantifier": "every pair of container trees (destination arbitrary; source with keys free of NUL and vectors shorter than 2^32), neither inside the other", "why_tests_cant": "all pairs of trees of any depth", "anchors": ["src/GenericContainer.cc: from_gc, to_gc, merge", "src/GenericContainer.hxx: operator="]}
{"id": "C57", "title": "Exactly which containers are copied faithfully", "statement": "The copy of a container equals it if and only if no key anywhere in it contains a NUL byte; and whatever is copied, the copy has no NUL in its keys.", "quantifier": "every container tree with vectors shorter than 2^32", "why_tests_cant": "an exact characterisation over all trees", "anchors": ["src/GenericContainer.hxx: copy constructor", "src/GenericContainer.cc: from_gc"]}
{"id": "C58", "title": "Exactly what a setter leaves", "statement": "set_X(v) always returns; an empty vector set over a vector of the same kind changes nothing, and in every other case the container holds v afterwards, so that v is read back if and only if it is not an empty vector set over elements of the same kind. Assigning an unsigned number stores the signed number with the same bits.", "quantifier": "every value of every settable type, every previous content", "why_tests_cant": "an exact characterisation over all values and previous contents", "anchors": ["src/GenericContainer.cc: set_*, allocate_*", "include/GenericContainer/GenericContainer.hh: operator="]}
{"id": "C59", "title": "Exactly what the integer reads return", "statement": "get_as_int, get_as_long, get_as_uint and get_as_ulong: booleans give 0 or 1; integers their low bits (unsigned: negative ones throw); reals that are whole give their value if it fits and are undefined if not; reals below 2^-1022 in absolute value give 0; other reals, NaN and infinities throw; complex numbers with zero (or such a small) imaginary part behave as their real part; everything else throws.", "quantifier": "every container, all bit patterns of numbers", "why_tests_cant": "2^64 and 2^128 bit patterns; boundary between subnormal, fractional and out-of-range numbers", "anchors": ["src/GenericContainer.cc: get_value, get_as_int, get_as_uint, get_as_long, get_as_ulong, isZero0, isInteger, isUnsigned"]}
{"id": "C60", "title": "Exactly which cell m(i,j) reaches", "statement": "With p = i + j*num_rows computed in 32 bits, m(i,j) reads and writes cell (p mod num_rows, p div num_rows) when p < num_rows*num_cols and throws otherwise; this is cell (i,j) exactly when both indices are in range.", "quantifier": "every matrix with fewer than 2^32 cells, every element type, every pair of indices", "why_tests_cant": "all sizes and index pairs, 32 bit wrap included", "anchors": ["include/GenericContainer/GenericContainer.hh: mat_type::operator()"]}
{"id": "C61", "title": "Exactly which tokens are returned", "statement": "Splitting a line gives the maximal non-empty runs of non-delimiters in order, except that a last run starting with a newline or carriage return is dropped.", "quantifier": "every line and every delimiter set", "why_tests_cant": "all texts and delimiter sets", "anchors": ["src/GenericContainerSupport.cc: tokenizeString"]}
{"id": "C62", "title": "Exactly what serialize does with a buffer", "statement": "serialize() into n bytes succeeds if and only if the container has no complex matrix inside and n >= mem_size(), and then exactly the first mem_size() bytes are written; without a complex matrix it throws otherwise; with one it throws or is undefined, and is undefined whenever the buffer is large enough.", "quantifier": "every container tree of less than 2 GiB in binary form, every buffer length", "why_tests_cant": "all trees and all buffer lengths, including those that end inside a nested element", "anchors": ["src/GenericContainerSerialize.cc: serialize, mem_size"]}
{"id": "C63", "title": "Exactly which keys are headings", "statement": "A key is printed as an underlined heading exactly when it consists of blanks, digits, blanks, one or two '#', an optional underline character out of '-', '=', '~', '_', blanks, and a text without line breaks; the heading shown is that text.", "quantifier": "every key", "why_tests_cant": "all byte strings; the match of a regular expression is not settled by examples", "anchors": ["src/GenericContainer.cc: reNum regex, dump, print_content_types"]}
{"id": "C64", "title": "print_content_types shows types, keys and sizes only", "statement": "print_content_types() writes the types inside the container line by line, with sizes of vectors and matrices, what is inside a vector or map one level deeper; two containers that differ only in stored values give the same text.", "quantifier": "every container tree, prefix and indent; every pair of containers with the same types", "why_tests_cant": "unbounded trees, and a statement about pairs of executions", "anchors": ["src/GenericContainer.cc: GenericContainer::print_content_types"]}
{"id": "C65", "title": "The base in which the stream writes integers after print", "statement": "After print() the stream writes integers in base 16 exactly if it did before or there is a pointer somewhere in the container.", "quantifier": "every container tree and both states of the stream", "why_tests_cant": "a pointer may be at any depth and the flag is sticky", "anchors": ["src/GenericContainer.cc: GenericContainer::dump"]}
{"id": "C66", "title": "What info says", "statement": "info() writes one line with the title of the type and, for a scalar, its value, for a vector, the number of its elements, for a matrix, rows and columns; different types have different titles, except that the four matrices share one.", "quantifier": "every container", "why_tests_cant": "all values and sizes", "anchors": ["src/GenericContainer.cc: GenericContainer::info"]}
{"id": "C67", "title": "The prefix is in front of every line, the indent at every level", "statement": "Every line written by print() starts with the given prefix, and every nested level is indented with the given indent.", "quantifier": "every container tree, prefix and indent", "why_tests_cant": "unbounded trees, all strings", "anchors": ["src/GenericContainer.cc: GenericContainer::dump", "include/GenericContainer/GenericContainer.hh: print"]}
{"id": "C68", "title": "Printing again gives the same text", "statement": "A container printed twice on the same stream gives the same text twice.", "quantifier": "every container tree, prefix and indent, both states of the stream", "why_tests_cant": "a statement about pairs of executions and all trees", "anchors": ["src/GenericContainer.cc: GenericContainer::dump"]}
{"id": "C69", "title": "to_yaml writes YAML that says what is in the container, and from_yaml reads it back", "statement": "For every container to_yaml returns, its text is a YAML document with the same booleans, numbers, strings, vectors in the same order, matrices by columns and maps with the same keys; containers with the same text hold the same data; and reading the text gives a container with the same data.", "quantifier": "every container tree, every indentation, every parser that delivers the nodes of the document", "why_tests_cant": "unbounded trees of twenty kinds of values at every depth of indentation, all strings and all keys", "anchors": ["src_yaml_interface/to_yaml.cc: to_yaml", "src/GenericContainer.cc: string_escape, to_string", "src_yaml_interface/from_yaml.cc: from_yaml, YAML_to_GC"]}
{"id": "C70", "title": "from_json accepts exactly the JSON texts", "statement": "from_json(stream) returns false exactly when the text, up to its first NUL byte, is not a JSON text in the sense of RFC 8259 whose numbers the reader can hold; it then leaves the container as it was. Blanks, the spelling of escapes and everything behind a NUL make no difference, and the call always comes to an end.", "quantifier": "every byte sequence, every previous content of the container", "why_tests_cant": "the texts are unbounded in length, nesting and layout, and acceptance is an equivalence", "anchors": ["src_json_interface/from_json.cc: GenericContainer::from_json", "src_json_interface/rapidjson/reader.h: GenericReader::Parse, ParseString, ParseNumber, ParseArray, ParseObject", "src_json_interface/rapidjson/istreamwrapper.h"]}
{"id": "C71", "title": "from_json stores the data of the document", "statement": "After from_json returned true on an empty container, the container holds the data of the JSON document: objects as maps with the same keys, arrays in order, strings and numbers with their values. On a container with contents the result is determined as well: the document is stored over what is there (null empties, members are added to or replace those of a map, an empty array keeps the elements of a vector).", "quantifier": "every JSON document, every text spelling it and every previous content of the container", "why_tests_cant": "documents are unbounded trees; the packing of arrays depends on all of their elements", "anchors": ["src_json_interface/from_json.cc: decode_json, GenericContainer::from_json", "src/GenericContainerCollapse.cc: collapse"]}
{"id": "C72", "title": "JSON integers keep their value", "statement": "An integer read by from_json is stored with its value.", "quantifier": "every integer literal, every previous content of the container", "why_tests_cant": "the classification has eight boundaries at powers of two and depends on the digits in front of the last", "anchors": ["src_json_interface/from_json.cc: decode_json", "src_json_interface/rapidjson/reader.h: ParseNumber"]}
{"id": "C73", "title": "to_json and from_json round trip", "statement": "to_json writes a JSON text as defined in RFC 8259 which describes the container, and from_json reads it back as the same data.", "quantifier": "every container, every prefix of blanks, every format of numbers that can be read back", "why_tests_cant": "containers nest without bound, and the writer and the reader disagree on control characters, keys, empty containers and a range of integers, which a sample of containers meets only by luck", "anchors": ["src/GenericContainer.cc: to_json, string_escape", "src_json_interface/from_json.cc: decode_json, from_json"]}
{"id": "C74", "title": "Tables read by column name: exactly what is stored", "statement": "read_formatted_data2() stores under `headers` the fields of the first line that is neither empty nor has a comment character, and under `data` a map with one column of numbers for each header name. The rows are the following lines of this kind, up to the first one without fields; the column of a name gets, row by row, the numbers below every header with that name, behind the numbers the column had before. The call throws exactly when such a row has a number of fields different from the number of headers; then the rows before it are stored. Everything else in the container stays, and the result does not depend on the parameter container. A last line without newline counts twice; when no line counts, the last line gives the headers.", "quantifier": "every text below 2^32 bytes, all sets of comment characters and delimiters, every container", "why_tests_cant": "all texts and all previous contents of the container", "anchors": ["src/GenericContainerSupport.cc: read_formatted_data2, get_line_and_skip_comments2, tokenizeString"]}
{"id": "C75", "title": "Parameters in comment lines", "statement": "When a parameter container is given, read_formatted_data2() stores in it name = value for exactly those empty-or-comment lines among the lines it reads whose second character is `!` and in which at least two texts separated by `=` follow: the name is the first text and the value the second one, both without blanks at the ends, a number when the C library reads one at its start and otherwise the string. For a name given several times the last value stays, other entries stay, and without such a line the parameter container is not changed. Without a parameter container nothing is stored.", "quantifier": "every text below 2^32 bytes, all sets of comment characters and delimiters, every container and parameter container", "why_tests_cant": "all texts", "anchors": ["src/GenericContainerSupport.cc: get_line_and_skip_comments2, read_formatted_data2"]}
{"id": "C76", "title": "What a container gets from a MATLAB value", "statement": "mxArray_to_GenericContainer() replaces whatever is in the container by exactly the data of the MATLAB value: one number becomes a scalar, a row a vector, another array with two dimensions a matrix of the same rows and columns and the same elements; a cell becomes a vector, a structure a map with the same field names, a structure array a map of vectors, text a string.", "quantifier": "every MATLAB value (nested cells and structures of any depth and size below 2^32), every previous content", "why_tests_cant": "MATLAB values are unbounded trees; all integers of all eight classes", "anchors": ["src_matlab_interface/GenericContainerInterface_matlab.cc: mxArray_to_GenericContainer, mx_to_vec_*, mxSparse_to_GenericContainer"]}
{"id": "C77", "title": "What MATLAB gets from a container", "statement": "GenericContainer_to_mxArray() makes a MATLAB value with exactly the data of the container: numbers and vectors as numeric arrays with the same values, matrices with the same rows and columns, vectors as cells, maps as structures with the same names. The to_mxArray() functions give the same values, vectors as columns.", "quantifier": "every container without an empty map in it, of any depth; sizes below 2^32", "why_tests_cant": "containers are unbounded trees", "anchors": ["src_matlab_interface/GenericContainerInterface_matlab.cc: GenericContainer_to_mxArray, to_mxArray"]}
{"id": "C78", "title": "From a container to MATLAB and back", "statement": "What comes back into a container from its MATLAB value is given by a normal form: ints become longs, vectors of one element numbers, matrices of one row vectors, and so on; all numbers keep their values and order. Exactly the containers in normal form come back the same, and from the second trip on nothing changes.", "quantifier": "every container without an empty map in it, of any depth; keys without NUL", "why_tests_cant": "containers are unbounded trees", "anchors": ["src_matlab_interface/GenericContainerInterface_matlab.cc: GenericContainer_to_mxArray, mxArray_to_GenericContainer"]}
{"id": "C79", "title": "From MATLAB to a container and back", "statement": "A MATLAB value stored in a container and converted back is the same value exactly if it is text, a double, complex double or int64 array of two dimensions, an int32 array of two dimensions that is neither a row nor one number, one logical, a row cell of such values, or a single structure of such values with fields in the order of their names.", "quantifier": "every MATLAB value", "why_tests_cant": "MATLAB values are unbounded trees", "anchors": ["src_matlab_interface/GenericContainerInterface_matlab.cc: GenericContainer_to_mxArray, mxArray_to_GenericContainer"]}
{"id": "C80", "title": "Pointers to the stored data", "statement": "get_int_pointer(), get_long_pointer(), get_real_pointer() and get_complex_pointer() give access to exactly the stored numbers, in order and without the last one's successor: a scalar is one number, a vector its elements, a matrix its elements by columns; writing through the pointer changes that element only and keeps the type and the size; any other content throws and stays unchanged. get_pointer() and get_ppvoid() refer to the stored pointer; get_pointer_at() gives an element of a vector of pointers.", "quantifier": "every container, every position, every written value", "why_tests_cant": "all types times all positions; position past the end", "anchors": ["src/GenericContainer.cc: get_int_pointer, get_long_pointer, get_real_pointer, get_complex_pointer, get_pvoid, get_ppvoid", "include/GenericContainer/GenericContainer.hh: get_pointer, get_pointer_at"]}
{"id": "C81", "title": "Copies to the caller's memory", "statement": "The overloads of get_column and get_row that copy to an array write exactly the column or row to its first elements and leave the others; out of range they throw; an array that is too short is overrun. get_complex_number(re,im) and get_complex_number_at(i,re,im) give the parts of the number that get_complex_number() returns and throw with it.", "quantifier": "every matrix with less than 2^32 elements, every index, every array", "why_tests_cant": "unbounded matrices and arrays", "anchors": ["src/GenericContainer.cc: mat_type::get_column, mat_type::get_row, get_complex_number, get_complex_number_at"]}
{"id": "C82", "title": "Indices of other integer types", "statement": "get_int_at(T), get_real_at(T) and the other reads with an index of any integer type use the element with that index, or throw or extend as the unsigned version does.", "quantifier": "every integer index, every container", "why_tests_cant": "all integers of all types", "anchors": ["include/GenericContainer/GenericContainer.hh: get_bool_at, get_int_at, get_long_at, get_real_at, get_complex_at, get_string_at, get_gc_at (templates)"]}
{"id": "C83", "title": "Reading and writing floats", "statement": "A float that is stored has exactly its value in the container, and reading it as float gives the same float back (a NaN for a NaN). Reading any real number as float gives the float nearest to it, ties to even, with its sign, infinity from (2^24-1/2) 2^104 on; a complex number only if its imaginary part is 0 or subnormal; anything else throws.", "quantifier": "every float, every container", "why_tests_cant": "2^32 floats, 2^64 doubles and longs", "anchors": ["src/GenericContainer.cc: get_value(float&)", "include/GenericContainer/GenericContainer.hh: operator=(float), set_real, GenericContainer(float)"]}
{"id": "C84", "title": "Loading a Ruby object", "statement": "container.load(obj) from Ruby stores exactly the container that obj stands for where the cursor of this container is, when that place is empty or holds neither array nor hash: booleans, 32 bit integers, floats, strings and symbols as they are, hashes as maps, arrays of strings as vectors of strings, arrays of numbers as vectors of the widest type among them, other arrays as vectors of containers (with numbers before the first string in the widest type among them). It raises exactly for integers of more than 32 bits, strings and keys with NUL, and arrays whose leading scalars start with a string and have a number after it. The cursor stays, no other container changes. On a vector of integers an array of integers is appended, on a map a hash adds its entries. After an exception inside of a hash the cursor stays on the entry and the next load stores there.", "quantifier": "every Ruby object of nil, booleans, numbers, strings, symbols, arrays and hashes, to any depth; every state of the C interface without GC_fill_for_test; every container", "why_tests_cant": "all nested objects; every state of the table of containers and cursors", "anchors": ["src_ruby_interface/GenericContainer_ffi.rb: GC_from_hash, addToVector, fromVector, fromMixedHash, load, initialize"]}
{"id": "C85", "title": "Reading a container from Ruby", "statement": "container.get_data in Ruby gives exactly the object of the container at the cursor and changes nothing: booleans as 0 and 1, integers, floats, strings, vectors as arrays, complex numbers in vectors and matrices as pairs, real and complex matrices as arrays of rows, nil for everything else. It never ends exactly when the container is a map, or a vector that holds one at any depth.", "quantifier": "every container with vectors of less than 2^31 elements; every state of the C interface without GC_fill_for_test; every stack deep enough", "why_tests_cant": "all nested containers; non-termination cannot be tested", "anchors": ["src_ruby_interface/GenericContainer_ffi.rb: GC_to_hash, toBoolVector, toIntVector, toRealVector, toComplexVector, toStringVector, toVector, toRealMatrix, toComplexMatrix, toMixedHash, get_data", "src/GenericContainerCinterface.cc: GC_get_next_key, GC_get_type_name"]}
{"id": "C86", "title": "Ruby objects that come back", "statement": "load followed by get_data gives the same object exactly for nil, 32 bit integers, floats, strings without NUL and arrays of these in which the leading scalars are all strings or start with a number, and, if there are only scalars, the numbers before the first string are all integers or all floats. true comes back as 1, a symbol as a string, an integer next to a float as a float; for a hash get_data does not end.", "quantifier": "every Ruby object, every state of the C interface without GC_fill_for_test", "why_tests_cant": "all nested objects", "anchors": ["src_ruby_interface/GenericContainer_ffi.rb: load, get_data, GC_from_hash, GC_to_hash"]}
{"id": "C87", "title": "Exactly what compare_content reports", "statement": "The text that compare_content( gc, from ) returns is empty for containers that are equal and contain neither real numbers nor non empty packed vectors. Otherwise the text is the report on the first difference: a line 'position: i' for each vector element entered and a line \"key: 'k'\" for each map entry entered, then the difference itself (different type, sizes, keys or the two values; for matrices one line per row that differs, at the first cell of the row), with the argument from in front of the first line and '> ' in front of the other lines. The call is undefined exactly when the comparison comes to two real numbers, it does not return exactly when it comes to two non empty packed vectors of the same type and size with the same first element, and it never throws.", "quantifier": "all pairs of well formed containers of any depth whose matrices have less than 2^32 cells, all prefixes, every textual form of floating point numbers and pointers", "why_tests_cant": "the way to the first difference can be arbitrarily long and the report depends on every pair of elements compared before it", "anchors": ["src/GenericContainer.cc: GenericContainer::compare_content, compare_vector, compare_matrix"]}
{"id": "C88", "title": "Exactly which texts survive escaping and reading as JSON", "statement": "The escaped form of a text (string_escape), read by from_json2 into an empty container, gives the text back exactly when its bytes from 0x80 on form groups (a first byte below 0xE0 and one continuation byte, below 0xF0 and two, otherwise three) and it has neither BEL nor VT. With BEL or VT these come back as a backslash and a letter, the rest unchanged. Without the grouping the call still returns true and stores nothing.", "quantifier": "every byte string", "why_tests_cant": "Ranges over all byte strings; a test tries some of them.", "anchors": ["src/GenericContainer.cc: string_escape", "src_json_interface/jsonLexer.cc: yylex", "src_json_interface/from_json2.cc"]}
{"id": "C89", "title": "Exactly what from_json2 stores", "statement": "from_json2 returns exactly for two kinds of texts: those that consist of the tokens of a document (objects, arrays, strings, numbers, true, false, null, in the loose syntax of the lexer) followed by the end of the text or by an ASCII character that starts no token, and those in which no token is found at all. In the first case the container, whatever it held, gets exactly what the document says: an array empties a container that is no vector and appends to one that is, the elements of an array inside an array become elements of the outer one behind an empty vector, an object adds its members to a map, a repeated key is stored over the first, integers are limited to 64 bits. In the second case nothing is stored. Then collapse is applied. Any other text that does not end in a blank makes it throw.", "quantifier": "every text, every previous content of the container, every behaviour of strtod", "why_tests_cant": "Ranges over all texts and all contents; a test tries some of them.", "anchors": ["src_json_interface/jsonLexer.cc: yylex", "src_json_interface/jsonParser.yy: GenericContainerWrapper", "src_json_interface/jsonParser.tab.cc: parse", "src_json_interface/from_json2.cc"]}
{"id": "C90", "title": "Making a vector or a matrix of a given size", "statement": "set_vec_X(n) and set_vector(n) never fail: the container then holds a vector of that type with n elements; if it held one of that type before, its elements are kept as far as they fit and n = 0 changes nothing; new elements are zero, false, empty. set_mat_X(nr,nc) with less than 2^32 entries gives a matrix with nr rows and nc columns; data of a matrix of that type is kept in column order (so entries keep their place exactly when the number of rows does not change), everything else is zero. From 2^32 entries on only the remainder modulo 2^32 is allocated. set_map() keeps the entries of a map and makes everything else an empty map.", "quantifier": "every container, every size", "why_tests_cant": "Ranges over all previous contents and all sizes.", "anchors": ["src/GenericContainer.cc: set_vec_int, set_mat_int, allocate_vec_int, allocate_mat_int, set_vector, set_map", "include/GenericContainer/GenericContainer.hh: mat_type::resize"]}
{"id": "C91", "title": "Exactly what promotion does", "statement": "promote_to_T() on every container: when T is a matrix type, the source a non empty vector of a narrower element type and the code writes the new matrix through the member for real matrices, the behaviour is undefined; otherwise, when the source is empty or as narrow as T (and not one of the four combinations the code refuses), the container holds the same numbers converted to T (two combinations end in another type: a vector promoted to complex becomes a vector of complex, a vector of bool promoted to a matrix of long becomes a matrix of real); otherwise an exception is thrown and nothing changes. promote_to_vector() turns a vector into the vector of its elements, an empty container into a vector with one empty container, refuses matrices and maps, and is undefined on scalars.", "quantifier": "every container of fewer than 2^32 elements and every promotion target", "why_tests_cant": "a table over all source types, targets, sizes and values", "anchors": ["src/GenericContainerPromote.cc: promote_to_int .. promote_to_mat_complex, promote_to_vector"]}
{"id": "C92", "title": "Exactly what push does", "statement": "push_T(x) of a number: a vector of containers or a vector of numbers as wide as x gets x (converted to its type) at the end; otherwise, unless x is a bool, a content promotable to the vector type of x becomes that vector with x at the end; otherwise an exception is thrown and nothing changes. push_string: a vector of strings gets the string at the end, any other vector becomes the vector of its elements with the string at the end, an empty container becomes a vector of an empty container and the string, matrices and maps are refused, and the call is undefined on scalars.", "quantifier": "every container of fewer than 2^32 elements and every pushed value", "why_tests_cant": "a table over all source types, sizes and values", "anchors": ["src/GenericContainer.cc: push_bool, push_int, push_long, push_real, push_complex, push_string"]}
{"id": "C93", "title": "Exactly what positional write access does", "statement": "Non-const get_T_at(i) on every container: on an empty container, a vector of T or a content promotable to it (for each T the documented source types) the vector grows to i+1 with zeros if needed and element i is found and updated in place; on any other vector the container becomes a vector of containers in which element i is replaced by the zero of T (as updated by the caller); matrices and maps are refused and scalars undefined. For the last index 2^32-1 the call is undefined (or refused on matrices and maps).", "quantifier": "every container of fewer than 2^32 elements, every index and every update through the reference", "why_tests_cant": "all contents, sizes, indices and updates", "anchors": ["src/GenericContainer.cc: get_bool_at, get_int_at, get_long_at, get_real_at, get_complex_at, get_string_at"]}
{"id": "C94", "title": "Exactly what copyto_* does", "statement": "copyto_vec_T gives the elements in order converted to T, or what the first element that cannot be converted does (exception, undefined conversion). In a vector of containers integers are cut to the width of T, elsewhere integers that do not fit are refused. copyto_mat_T gives a matrix of the same numbers and shape for contents as narrow as T, one column per element for a vector of containers whose elements have all the same size, is undefined for an empty content other than a vector of bool, and throws for everything else.", "quantifier": "every container (fewer than 2^32 elements or cells) and every target type", "why_tests_cant": "all source types, sizes and values", "anchors": ["src/GenericContainerPromote.cc: copyto_vec_int .. copyto_mat_complex"]}
{"id": "C95", "title": "Exactly what the counts and get_number_at give", "statement": "get_num_elements is the number of elements (entries for a map) modulo 2^32; num_rows is 0 for an empty container, the rows of a matrix, else 1; num_cols is the columns of a matrix, else the number of elements modulo 2^32. get_number_at(i) and get_complex_number_at(i) on a vector or matrix of numbers or a vector of containers give element i as a number, throw when it is not a number, and are undefined when i is out of range; on every other type they throw.", "quantifier": "every container and every index", "why_tests_cant": "all types, sizes and indices", "anchors": ["src/GenericContainer.cc: get_num_elements, num_rows, num_cols, get_number_at, get_complex_number_at"]}
{"id": "C96", "title": "Access by keys that contain NUL", "statement": "exists, gc[k], gc(k), get_map_*(k), the path form of get_map_* and get_if_exists act exactly as with the bytes of the key before its first NUL: what is stored there is read or updated, every other key is unaffected, and gc[k] on a const map inserts an empty container when there is nothing. erase, must_exists, gc({keys}) and get_map_*({keys}) use the whole keys. get_map_bool(k) needs the shortened key to be present and reads the whole key.", "quantifier": "every container, every key (any bytes), every call made through the reference, with its normal, throwing and undefined outcomes", "why_tests_cant": "all map contents and all keys, including keys that are not C strings", "anchors": ["src/GenericContainer.cc: exists, operator[](string_view), operator()(string_view), get_map_*, get_if_exists, erase, must_exists"]}
{"id": "C97", "title": "Exactly what read_formatted_data stores", "statement": "read_formatted_data on every text and every container: the lines are those of the text (a last line without newline counts twice); lines with a comment character do not count; the first line that counts gives the headers (the last line of all if none counts) and the following ones up to one without words the rows. The call throws exactly when a row has not one word for each header. In both cases the entry headers holds the headers, the entry data the columns, in which the numbers of the rows before the first bad one follow the numbers that were already there (nothing changes without headers), and every other entry is as before.", "quantifier": "every text below 2^32 bytes, every set of comment characters and delimiters, every previous content, every textual number conversion", "why_tests_cant": "all texts and all previous contents, including texts that are refused half way", "anchors": ["src/GenericContainerSupport.cc: read_formatted_data, getLineAndSkipComments, tokenizeString"]}
{"id": "C98", "title": "Exactly what references to matrices and cells give", "statement": "Non-const get_mat_T() and get_T_at(i,j) on every container: an empty container becomes a 0 x 0 matrix of T (for get_T_at an i x j matrix of zeros, real for int and long, in which case the call throws); a content that is accepted is converted to a matrix of T with the same numbers (vectors become one column) and the update made through the reference is stored, for get_T_at in the cell at position i + j * rows modulo 2^32, with an exception if there is none; the conversions that write through the wrong member are undefined, the one that ends in another type (bool vector to matrix of long) throws leaving a real matrix; everything else throws and changes nothing. The const calls get_T_at(i,j) return the stored element at that position: int and long check row and column, real checks the row against the number of stored elements only, complex nothing; otherwise they throw.", "quantifier": "every container of fewer than 2^32 elements, every index pair, every update through the reference", "why_tests_cant": "a table over all source types, sizes, values, indices and updates", "anchors": ["src/GenericContainer.cc: get_mat_int, get_mat_long, get_mat_real, get_mat_complex, get_int_at, get_long_at, get_real_at, get_complex_at"]}
{"id": "C99", "title": "Exactly what collapse() does", "statement": "collapse() works from the inside out: the values of a map are collapsed one after the other and the keys stay; the elements of a vector of containers are collapsed in order, and the first one that throws stops the call, with the elements before it collapsed and the ones after it untouched; every other content and the empty vector stay as they are. A vector of containers whose collapsed elements do not all have the same number of elements stays a vector. Otherwise the last type, in the order of declaration, that occurs among the elements decides: for booleans, ints, longs and reals a packed vector of that type, or an exception when one element is a pointer; for complex numbers a packed vector, or an exception when another element is not complex; for strings a vector of strings when all are; for packed vectors of ints, longs, reals or complex numbers a matrix with one column per element as copyto_vec_* reads it, or the exception of that call, with the vector as it was; for any other type the vector stays.", "quantifier": "every container, of any nesting and size (counts below 2^31 and fewer than 2^32 cells), every previous content", "why_tests_cant": "the outcome depends on the types and the sizes of all elements at every level; tests sample a few combinations", "anchors": ["src/GenericContainerCollapse.cc: GenericContainer::collapse", "src/GenericContainerCollapse.cc: max_sub_type, last_nelem, can_collapse"]}
{"id": "C100", "title": "Exactly the text to_json and to_yaml write, addresses included", "statement": "For every container whose matrices are full, to_json and to_yaml write exactly this text: brackets, separators, indentation and the spelling of each value as listed, addresses in base 16, and every whole number in base 10 before the first address on the stream and in base 16 after it. Written twice on the same stream the text is the same exactly when it has no address, or no whole number but zero is before the first address.", "quantifier": "every container tree, every prefix, both states of the stream", "why_tests_cant": "unbounded trees and a state of the stream that depends on everything written before", "anchors": ["src_json_interface/to_json.cc: to_json", "src_yaml_interface/to_yaml.cc: to_yaml"]}
{"id": "C101", "title": "Exactly the text print writes, addresses included, and when it is the same the second time", "statement": "For every container whose matrices are full, print writes exactly the listed text, addresses in base 16, and every whole number, indices included, in base 10 before the first address on the stream and in base 16 after it. Printed twice on the same stream the text is the same exactly when the container holds no pointer, or no whole number but zero is printed before the first address.", "quantifier": "every container tree, prefix and indent, both states of the stream", "why_tests_cant": "unbounded trees and pairs of executions on one stream", "anchors": ["src/GenericContainer.cc: GenericContainer::dump", "include/GenericContainer/GenericContainer.hh: print"]}
{"id": "C102", "title": "How deep a container may be to go through the Lua interpreter", "statement": "A Lua state offers the library twenty places on its stack and the library never asks for more. Sending a container takes a number of places that depends only on its nesting (a list one more than its elements, a map two more than its values), and reading a table takes two places for each level. Where the places are there the call does what it should; where they are not the call writes past the stack (undefined). Nine maps in one another can be sent to a fresh interpreter and read back; ten cannot.", "quantifier": "every container without a vector of booleans, every Lua table, every number of values on the stack before the call", "why_tests_cant": "the overflow shows only for deep data or after many calls, and Lua's own slack hides it in many runs", "anchors": ["src_lua_interface/GenericContainerInterface_lua.cc: GC_to_lua, lua_table_to_GC, push_vec_element, push_hash_element"]}
{"id": "C103", "title": "The Lua interpreter can be used again and again", "statement": "Reading a variable of the interpreter or running a program any number of times works each time: the calls leave nothing behind in the interpreter.", "quantifier": "every variable, every program (also failing ones whose exception is caught), every number of calls, every state of the interpreter", "why_tests_cant": "a value left on the stack by each call does harm only after many calls", "anchors": ["src_lua_interface/GenericContainerInterface_lua.cc: Lua_global_to_GC, LuaInterpreter::execute"]}
{"id": "C104", "title": "A container sent to Lua comes back", "statement": "A container stored in a variable of the interpreter and read back has the same data: the same numbers, strings, booleans, lists and maps in the same places. Other variables keep their values, and storing leaves the stack of the interpreter as it was.", "quantifier": "every container, every variable name, every state of the interpreter", "why_tests_cant": "unbounded trees, all numbers, any number of values already on the stack", "anchors": ["src_lua_interface/GenericContainerInterface_lua.cc: Lua_GC_to_global, Lua_global_to_GC, GC_to_lua, lua_table_to_GC"]}
{"id": "C105", "title": "Calling a Lua function", "statement": "call gives the Lua function the data of \"args\" and stores what it returns in the result; if the function fails the call throws and the result container is untouched; if \"function\" or \"args\" is missing or has another type the call throws and nothing changes.", "quantifier": "every argument container, every function (its behaviour is arbitrary), every result, every state of the interpreter", "why_tests_cant": "all functions and all arguments", "anchors": ["src_lua_interface/GenericContainerInterface_lua.cc: LuaInterpreter::call"]}
{"id": "C106", "title": "Exactly what from_yaml and from_toml do", "statement": "from_yaml and from_toml never throw. A text the parser refuses gives false and leaves the container as it was. A document is stored over what the container has: scalars replace it, elements of sequences are stored over the elements of a vector, entries of mappings over the entries of a map; TOML arrays of strings, of whole numbers (their low 32 bits) and of floating point numbers are appended to a vector of their kind that is there, dates and times become maps with one entry; then collapse packs the result, and the answer is true unless that throws. A YAML document with a key that is not a string, at any depth, gives false.", "quantifier": "every document with arrays of fewer than 2^32 elements, every previous content of the container", "why_tests_cant": "unbounded documents and every combination with previous content", "anchors": ["src_yaml_interface/from_yaml.cc: YAML_to_GC, from_yaml", "src_toml_interface/from_toml.cc: TOML_to_GC, from_toml"]}
{"id": "C107", "title": "Sessions of any length with the Lua interpreter", "statement": "In an interpreter with an empty stack a session of any length, made of programs and files that run without error, containers that are stored and tables that are read (none deeper than the stack allows), runs to the end without an exception, leaves nothing in the interpreter, and a table read at the end is in the container. Every program that fails and every read of a variable that holds no table leaves one value in the interpreter, in whatever order they come: the twenty-first is undefined. A failing file is an exception with the error left as text on the stack, except that an error of nil is not reported at all and one without a text is undefined. A function that returns nothing makes the result empty, where reading a variable that holds no data throws.", "quantifier": "All sessions (sequences of calls) of any length, all behaviours of the Lua programs, all names, containers and variables.", "why_tests_cant": "The property is about all sequences of calls; the damage shows only after the twentieth failure, whatever they are.", "anchors": ["src_lua_interface/GenericContainerInterface_lua.cc: LuaInterpreter::do_file, LuaInterpreter::execute, LuaInterpreter::call, Lua_global_to_GC, Lua_GC_to_global"]}
{"id": "C108", "title": "Exactly what comes back from TOML", "statement": "For a map without an empty container inside, to_toml followed by from_toml on an empty container gives back: scalars as they are (a long that has 32 bits as an int); a complex number as a list of two reals; a pointer as the text of its address; a vector of long as a vector of int with the low 32 bits of each number; lists of strings or pointers, of whole numbers, of reals as packed vectors; an empty list as an empty vector of strings; a matrix as a map with its data and sizes, those of reals and complex numbers under the name of the matrices of long; and all of it then packed by collapse, the answer being false exactly if that throws. On a container that is a map already, the document is stored over its entries and the other entries stay.", "quantifier": "All maps of any depth without an empty container inside, all addresses.", "why_tests_cant": "The claim is over all trees; what is lost depends on values and kinds anywhere in the tree.", "anchors": ["src_toml_interface/to_toml.cc: GC_to_TOML, to_toml", "src_toml_interface/from_toml.cc: TOML_to_GC, from_toml"]}
{"id": "C109", "title": "Exactly what a failed copy leaves in the destination", "statement": "When copyto_vec_int/_uint/_long/_ulong/_real/_complex/_string throws, the vector passed by the caller holds exactly the converted elements that come before the first element that is refused, and nothing of what it held before; when the content is refused as a whole it is empty. When copyto_mat_int/_long/_real/_complex throws because of the type, because the vector of containers is empty or because its columns have different lengths, the matrix keeps its old numbers of rows and columns and has no element; when it throws on a column, the matrix has the new sizes, the columns before that one, and zeros from there on. What the destination held before never influences the outcome.", "quantifier": "all contents below 2^32 elements, all destinations, all failures", "why_tests_cant": "the state after a failure depends on which element of an arbitrarily long content fails; tests look at the outcome, not at the destination after the exception", "anchors": ["src/GenericContainerPromote.cc: copyto_vec_int, copyto_vec_uint, copyto_vec_long, copyto_vec_ulong, copyto_vec_real, copyto_vec_complex, copyto_vec_string, copyto_mat_int, copyto_mat_long, copyto_mat_real, copyto_mat_complex", "include/GenericContainer/GenericContainer.hh: mat_type"]}
{"id": "C110", "title": "A matrix stays consistent through a failed copy", "statement": "After a copyto_mat_* call that throws, the destination matrix still has as many elements as its numbers of rows and columns say. Proved when the content is a nonempty vector of containers of one length. It is false when the content is refused as a whole: the matrix keeps its numbers of rows and columns and loses all its elements, so that reading a cell with operator[] or data() is undefined.", "quantifier": "all contents, all destinations, all failures", "why_tests_cant": "a failure at any column of any content has to be considered", "anchors": ["src/GenericContainerPromote.cc: copyto_mat_int, copyto_mat_long, copyto_mat_real, copyto_mat_complex", "include/GenericContainer/GenericContainer.hh: mat_type"]}
{"id": "C111", "title": "Exactly what write_table writes, also when an exception ends it", "statement": "write_table and write_table_formatted, for a table given by columns and for a matrix of reals, append to the stream the header line (for the formatted versions also a ruler), one line for each row with the fields separated by the delimiter, and (formatted) a second ruler. When a cell cannot be read as a number the exception leaves exactly the header part, the complete rows above, and in the row of the cell the fields before it each followed by the delimiter; the formatted versions leave the width of a field pending in the stream. Fewer headers than fields written are undefined for the matrix version, an empty table or no header are undefined for the plain version, an empty table for the formatted version. The width of a field is that of the longest header, at least 8 and at most 20; a ruler is as long as a line. write_formatted_data does this for the fields headers and data of a map, and throws without writing on any other content.", "quantifier": "all headers (fewer than 2^32), all columns, all matrices, all delimiters, all texts already in the stream, all number formats", "why_tests_cant": "the failing cell can be anywhere in a table of any size, and tests do not look at the stream after the exception", "anchors": ["src/GenericContainerTables.cc: write_table, write_table_formatted", "src/GenericContainer.cc: get_number_at", "src/GenericContainerSupport.cc: write_formatted_data"]}
{"id": "C112", "title": "Exactly what a failed call leaves in the container", "statement": "When a call that may change a container throws, the container is exactly as before, with these exceptions, each of which is determined: get_int/long/real/complex_at(i,j) has made an i x j matrix of zeros out of an empty container (real, or complex for the complex call) and has turned a vector (for the complex call also a real matrix) it accepts into a matrix with the same numbers; get_mat_long has turned a vector of booleans into a real matrix; a call on c[i] has made c a vector with the old elements (none if c was no vector) and empty containers up to position i, where it leaves what the call on the element leaves; a call on c[key] has made c a map with the old entries and that entry; calls on c(i), c(key), c({keys}) leave what the call on the element leaves, everything else unchanged; collapse() leaves the elements before the failing one collapsed, and the others as they were.", "quantifier": "all calls, on the container or on elements of elements at any depth, and all well-formed containers with sizes below 2^32", "why_tests_cant": "the state after a failure has to be known for every call, every content and every depth of nesting", "anchors": ["src/GenericContainer.cc: operator [], operator (), get_int_at, get_long_at, get_real_at, get_complex_at, get_mat_long, push_*, set_*, erase, merge", "src/GenericContainerPromote.cc: promote_to_*", "src/GenericContainerCollapse.cc: collapse"]}
{"id": "C113", "title": "Exactly what de_serialize does with arbitrary bytes", "statement": "For every byte sequence and every announced size, de_serialize does exactly what the format, read naively, says: a four byte tag selects the type, the values follow at the next offsets, a record that holds records reads them one after the other, and of two entries with the same key the later one counts. It throws exactly when some record ends after the announced size or a vector of booleans announces 2^31 elements or more; it reads outside of the bytes (or overflows the byte count) exactly when a tag, count, value or text is missing; unknown tags and the tags of pointers are empty containers; texts end at the first NUL whatever their length says, and the length, which may be negative, says where reading goes on; a complex matrix is read and then replaced by a vector of strings read after it. The call never ends exactly when the bytes have no outcome in this sense, which happens (negative lengths).", "quantifier": "all byte sequences, all announced sizes (also negative), all previous contents", "why_tests_cant": "the inputs are all byte sequences, of any length and nesting depth, and non-termination cannot be observed", "anchors": ["src/GenericContainerSerialize.cc: de_serialize"]}
{"id": "C114", "title": "No call leaks, frees twice or reads released storage", "statement": "In any program that makes containers, copies them, assigns and merges them, ends their lifetimes and calls on them, or on any element or entry inside them, the setters, set_*(n), push_*, get_*_at, set through references, promote_to_*, set_vector, set_map, erase, free_pointer, collapse, clear and merge, in any order and with calls that end in exceptions among them, no payload is used after it was released, none is released twice, every container owns its storage alone, every container holds what the same calls give on values, and when all the containers are gone nothing is left allocated.", "quantifier": "every sequence of such calls with every argument for which the call on that value is defined C++ and gives no vector of 2^32 elements or more, every nesting of containers, every choice of std::vector to grow in place or move its elements; assign and merge between places of which neither is inside the other", "why_tests_cant": "A leak or a double release needs a particular order of type changes, promotions and exceptions; the number of such orders is not bounded, and a leaked block has no visible effect.", "anchors": ["src/GenericContainer.cc: clear, allocate_*, promote_to_*, push_*, get_*_at, collapse, merge"]}
{"id": "C115", "title": "Running out of memory leaves containers that can be destroyed", "statement": "When std::bad_alloc comes out of a call (set_*, set_vector, set_map, operator[] with an index or a key, assignment, copy construction), every container still existing can be destroyed, no container other than the one written to has changed, and nothing that was allocated is lost.", "quantifier": "every program (any sequence of constructions, calls at any places inside the containers, assignments, copies and ends of lifetimes), every next step, and every choice of which allocations fail (every crash point)", "why_tests_cant": "a test makes one chosen allocation fail in one chosen call; the claim is about every set of failing allocations, after every history, for trees of any shape and size", "anchors": ["src/GenericContainer.cc:GenericContainer::allocate_string", "src/GenericContainer.cc:GenericContainer::allocate_vector", "src/GenericContainer.cc:GenericContainer::allocate_map", "src/GenericContainer.cc:GenericContainer::set_complex", "src/GenericContainer.cc:GenericContainer::from_gc", "include/GenericContainer/GenericContainer.hh:GenericContainer(GenericContainer const &)"]}
{"id": "C116", "title": "Exactly what running out of memory leaves", "statement": "A step in which allocations fail ends as with enough memory, or ends with std::bad_alloc and then: containers it does not write to hold what they held and can be destroyed; if what failed is the payload of a new type (any payload for COMPLEX), the container written to can be neither destroyed nor cleared; if what failed is the storage of a vector that grows, every container holds what it held (a container that was of another type is an empty VECTOR); if a copy construction fails, every container holds what it held. A step that allocates at most one payload, and needs none or gets it, does not fail.", "quantifier": "every program, every next step, every choice of which allocations fail", "why_tests_cant": "the set of failing allocations and the history before them are unbounded", "anchors": ["src/GenericContainer.cc:GenericContainer::allocate_vector", "src/GenericContainer.cc:GenericContainer::allocate_map", "src/GenericContainer.cc:GenericContainer::set_complex", "src/GenericContainer.cc:GenericContainer::set_vector", "src/GenericContainer.cc:GenericContainer::operator []", "src/GenericContainer.cc:GenericContainer::from_gc"]}
{"id": "C117", "title": "What a Lua list of any mixture of values becomes", "statement": "A Lua list whose entries come in order, made of booleans, exactly stored numbers, strings without NUL and readable tables in any mixture, is read as follows. If a boolean comes after something that is no boolean, reading throws, and what is left behind is the values before it and false. Otherwise the container has as many elements as the list. Values before the first table are lost (their elements are empty) exactly if they are all strings or none of them is a string; every other value arrives: strings and tables as themselves, integers as LONG and fractions as REAL, except that in the numbers the list begins with a single fraction makes all of them REAL, and booleans in front of a number count as 0 and 1. The container is a VECTOR exactly if there are tables, or strings and other values; it is a packed vector otherwise.", "quantifier": "every Lua list of fewer than 2^32 values of these kinds, in every mixture and nesting, delivered in order", "why_tests_cant": "the outcome depends on the whole sequence of kinds read so far; tests cover a handful of mixtures", "anchors": ["src_lua_interface/GenericContainerInterface_lua.cc: push_vec_element, lua_table_to_GC", "src/GenericContainer.cc: get_bool_at, get_long_at, get_real_at, get_string_at, operator[], promote_to_vector"]}
{"id": "C118", "title": "get_pointer_at, exactly", "statement": "Reading with get_pointer_at(i): the result is the pointer if the container is a VECTOR whose element i is a POINTER, and in every other case the call throws. Writing through get_pointer_at(i): where there is a pointer it is replaced, the old one is what was read, and nothing else changes; otherwise the call throws, and by then a VECTOR has grown with empty containers up to the index, and anything that was no VECTOR has been replaced by a VECTOR of empty containers.", "quantifier": "every content, every pointer, every index below 2^32 - 1 (for reading every index)", "why_tests_cant": "the damage left behind when the call throws depends on every possible content and index", "anchors": ["src/GenericContainer/GenericContainer.hh:2726-2744 get_pointer_at", "src/GenericContainer.cc: operator[]"]}
{"id": "C119", "title": "How every call of the C interface ends", "statement": "Every call of the C interface returns, lets a C++ exception leave the C function, or is undefined, exactly as a table over the type under the cursor and the arguments says. With nothing selected every call returns. On an empty cursor stack the getters and GC_set_vector_of_* end with an exception. Undefined are: GC_get_next_key without a living map to walk over, GC_push_vector_position(-1) on a vector, GC_push_string on a single value, GC_get_bool_at_pos, GC_get_int_at_pos and GC_get_string_at_pos on a single value (except BOOL and INTEGER for int) and at position -1, GC_get_real_at_pos and GC_get_complex_at_pos outside of the elements, and the complex coordinate getters on a non-empty vector of narrower numbers. The typed getters end with an exception on any other non-empty type. No call runs forever.", "quantifier": "every state that any sequence of calls (without GC_fill_for_test) leads to whose container under the cursor has fewer than 2^32 elements, every call, every argument", "why_tests_cant": "whether a call is safe depends on all contents and on the history of the cursor; an undefined call need not fail in a test", "anchors": ["src/GenericContainerInterface_C.cc", "src/GenericContainer.cc: get_bool_at, get_int_at, get_string_at, get_number_at, get_complex_number_at, get_real_at, get_complex_at, push_string, promote_to_vector"]}
{"id": "C120", "title": "References that stay good", "statement": "A reference to a container inside a variable (an element, an entry, at any depth), taken at some point of a program, refers to the container at the same place afterwards, with the value it has then, whatever calls are made in between on other variables, on the container itself, on what is inside it, and on parts of the same variable that it is not inside of. Adding and looking up other entries of a MAP it is inside of, removing other entries, and looking at existing elements of a VECTOR it is inside of keep it as well. When the container itself is not called either, it keeps its type and its payload stays at the same address, so references from the getters stay good. When a container it is inside of is cleared, its variable ends, or the entry is removed, there is nothing where the reference points.", "quantifier": "every program before the reference is taken, every place, every program afterwards of such calls, every choice of when a std::vector grows in place", "why_tests_cant": "a dangling reference usually reads the old bytes; and which calls move a container depends on the whole history", "anchors": ["src/GenericContainer.cc: operator[], erase, clear, allocate_vector, allocate_map, from_gc, merge, push_*, promote_to_*, collapse", "src/GenericContainer.hh: m_data"]}
{"id": "C121", "title": "What GC_fill_for_test leaves, whatever was there before", "statement": "GC_fill_for_test(id) never fails: in every state that calls of the C interface lead to, whatever the container of the name holds and wherever its cursor is, the call returns GENERIC_CONTAINER_OK, selects the name, and leaves in its container a VECTOR of exactly 11 elements with the values listed in the code; the containers of all other names are as they were. Parts of the old content that already have the type asked for are kept, not replaced: entries of the two maps under other keys stay, the strings, the integers under \"vector\" and the complex numbers are appended to those already there, the reals other than the third and the first column of the matrices stay. So a second call doubles the lists.", "quantifier": "every state reachable by any history of C interface calls (including earlier fills), every name, every content of the named container, and every key and index of the result", "why_tests_cant": "a test fills a fresh container once; the result depends on everything the container held before, and the call must succeed from every history", "anchors": ["src/GenericContainerInterface_C.cc: GC_fill_for_test, GC_select", "src/GenericContainer.cc: set_vector, set_map, set_vec_real, set_vec_string, set_vec_int, set_vec_complex, set_mat_real, set_mat_complex, push_*, operator[]"]}
{"id": "C122", "title": "Assignments between a container and a part of it", "statement": "Let y be a place inside x, at any depth. y = x never ends, whatever the two hold. x = y: if y holds nothing, a boolean, a number or a pointer, then x gets that value, everything that was inside x is released and nothing else changes; if y holds something else of another type than x, y is released and then read (undefined behaviour); if both are VECTORs or both MAPs and y is empty, nothing changes at all; if both are VECTORs and y, not empty, is in an element whose index is not less than the size of y, y is released and then read; if both are VECTORs and x has to move to other storage to become as long as y, y is released and then read; if both are MAPs and y has no entry with the key of x that leads to y, or an empty VECTOR or MAP there of the same type as that entry of x, x becomes what it would be if y had been copied to another variable first, and the entry that holds y stays; the same for two VECTORs, if x stays where it is when it gets the length of y and y has such an empty element at the index of x that leads to y; if y is the element i of a VECTOR x and is a VECTOR no longer than x, y[i] is a VECTOR no longer than y, and so on inwards until an empty VECTOR, then the assignment returns, and at every level the elements before i come from the level inside as it was, the elements after i from the level inside as its own assignment has left it, as far as it goes; if both are VECTORs (or both MAPs) and one of the assignments to be made is to the element (entry) of x that y is in, and puts nothing, a boolean, a number or a pointer there, or loses its own source in one of these ways, then y is released and then read.", "quantifier": "every program of calls on any number of variables before the assignment, every container x at any depth, every part y of it at any depth below, every content, every behaviour of std::vector on growth", "why_tests_cant": "whether a tree copied into itself ever ends, and whether freed storage is read, cannot be observed by running a sample; a program that happens to survive proves nothing about the others", "anchors": ["src/GenericContainer.cc: GenericContainer::from_gc, clear, allocate_vector, allocate_map, set_vector", "include/GenericContainer/GenericContainer.hh: operator = ( GenericContainer const & )"]}
{"id": "C123", "title": "Setters and push calls whose argument is a reference into a container", "statement": "The argument of set_string, set_complex, set_vec_*, set_mat_*, push_string or push_complex may be what another call returned a reference to: y.get_string(), y.get_vec_int(), y.get_vec_string()[i], ... If y is not x and not inside x, the call on x does what it does with a copy of the argument. x.set_T( x.get_T() ) changes nothing, except x.set_complex( x.get_complex() ), which reads the number after releasing it. x.set_T( y.get_T() ) with y inside x, or with an element of the vector or matrix x holds, reads the argument after releasing it (undefined behaviour), unless it is an empty string. An element of the VEC_STRING or VEC_COMPLEX x may be pushed to x. A string or complex number inside the VECTOR x may be pushed to x exactly when the std::vector grows where it is; when it moves, the argument is read after its release. Pushed to a MAP it throws and changes nothing. x.push_complex( x.get_complex() ) reads the number after releasing it.", "quantifier": "every program of calls on any number of variables before the call, every two places at any depth, every content of them, every element, every behaviour of std::vector on growth", "why_tests_cant": "reading released storage often returns the old bytes, so a test passes; whether it happens depends on where the argument is and on how the vector grows, over all programs and all shapes", "anchors": ["src/GenericContainer.cc: GenericContainer::set_string, set_complex, set_vec_*, set_mat_*, push_string, push_complex, allocate_*, clear", "src/GenericContainerPromote.cc: promote_to_vec_complex, promote_to_vector"]}
{"id": "C124", "title": "merge between a container and a part of it, or itself", "statement": "Nothing stops a program from calling x.merge(y) when y is x or is inside x, or the other way round. If x is a MAP: y.merge(x), with y a MAP or an empty container inside x, never ends. x.merge(x) changes nothing when there is no COMPLEX anywhere inside x, and reads released storage when there is one. x.merge(y) with y an empty container or an empty MAP inside x changes nothing. If y is a MAP inside the entry k of x and has no entry k, or an empty VECTOR or MAP there of the same type as the entry k of x, the call does what it does with a copy of y, and the entry k stays. If y is lost on the way (its entry replaced, or assigned from a part of itself that is lost) released storage is read. For any two places, a y that holds something other than a MAP, or an x that holds something other than a MAP while y is a MAP, gives an exception and no change, and a y that holds nothing gives no change.", "quantifier": "every program of calls on any number of variables before the call, every two places at any depth of which one is inside the other (any two for the calls that are refused), every content of them", "why_tests_cant": "the outcome depends on the shape of both containers at any depth; the endless copy and the read of released storage show up in a test as a crash, or not at all", "anchors": ["src/GenericContainer.cc: GenericContainer::merge, GenericContainer::from_gc", "src/GenericContainer.hh: GenericContainer::merge"]}
{"id": "C125", "title": "Copying a container to a vector or matrix that is part of it", "statement": "copyto_vec_int, _long, _real, _complex, _string and copyto_mat_* take their destination by reference, and get_vec_*, get_mat_* return a reference to what a container holds. x.copyto_vec_T( x.get_vec_T() ) returns and leaves x empty. x.copyto_mat_T( x.get_mat_T() ) returns with every element zero (int, long, real), throws and leaves the sizes without the elements (complex), and is undefined for a matrix without elements. When the destination is a vector inside an element of x, the call does what it does with a vector of the caller, which is to stop at that element at the latest: it never returns, and the vector then holds the elements before. When the destination is a matrix inside an element of x, the call does what it does with a matrix of the caller and the container in which the matrix has lost its elements; when it is an element of the VECTOR x and another element of x has elements, it throws and the matrix keeps its sizes and no elements.", "quantifier": "every content of the container, every vector or matrix inside it at any depth, every one of the nine functions whose destination type a container can hold", "why_tests_cant": "a copy to itself looks like one that does nothing; what happens depends on when each function clears, counts and reads, at any depth and for all contents", "anchors": ["src/GenericContainerPromote.cc: copyto_vec_int, copyto_vec_long, copyto_vec_real, copyto_vec_complex, copyto_vec_string, copyto_mat_int, copyto_mat_long, copyto_mat_real, copyto_mat_complex", "include/GenericContainer/GenericContainer.hh: mat_type::resize, get_vec_int, get_mat_real"]}

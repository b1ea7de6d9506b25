{
 "literal-slash": {
  "theorems": [
   "C65_document"
  ],
  "note": "survived the first round; killed since C65_document"
 },
 "ann-clear": {
  "theorems": [
   "C65_document"
  ],
  "note": "survived the first round; killed since C65_document"
 },
 "field-optional": {
  "theorems": [
   "C65_document"
  ],
  "note": "survived the first round; killed since C65_document"
 },
 "field-comment": {
  "theorems": [
   "C65_document"
  ],
  "note": "survived the first round; killed since C65_document"
 },
 "outputs-swap": {
  "theorems": [
   "C65_document"
  ],
  "note": "survived the first round; killed since C65_document"
 },
 "stream-input": {
  "theorems": [
   "C65_document"
  ],
  "note": "survived the first round; killed since C65_document"
 },
 "errors-clause": {
  "theorems": [
   "C65_document"
  ],
  "note": "survived the first round; killed since C65_document"
 },
 "error-list": {
  "theorems": [
   "C65_document"
  ],
  "note": "survived the first round; killed since C65_document"
 },
 "meta-last": {
  "theorems": [
   "C65_document"
  ],
  "note": "survived the first round; killed since C65_document"
 },
 "arg-optional": {
  "theorems": [
   "C65_document"
  ],
  "note": "survived the first round; killed since C65_document"
 },
 "letter-lower": {
  "theorems": [
   "C72_lower_partial"
  ],
  "note": "survived the first attempt, before the theorem existed; killed since"
 },
 "js-html": {
  "theorems": [
   "C74_no_markup"
  ],
  "note": "survived the first attempt, before the theorem existed; killed since"
 },
 "js-surr": {
  "theorems": [
   "C74_reads",
   "C74_strings"
  ],
  "note": "survived the first attempt, before the theorems existed; killed since"
 },
 "js-null": {
  "theorems": [
   "C61_null_json"
  ],
  "note": "survived the first attempt, before the theorem existed; killed since"
 },
 "cl-eq": {
  "theorems": [],
  "note": "equivalent edit: '-=x' then has an empty flag name, which is unknown, so it is a usage error either way"
 },
 "ts-first": {
  "theorems": [
   "C81_refuses"
  ],
  "note": "survived round 4; C81_refuses added, which it breaks"
 },
 "va-empty": {
  "theorems": [
   "C78_members"
  ],
  "note": "survived round 4; C78_members added, which it breaks"
 },
 "io-status": {
  "theorems": [
   "C89_no_answer"
  ],
  "note": "survived round 7: no theorem covered a handler that writes nothing; killed since C89_no_answer (see io-implicit)"
 },
 "au1-016": {
  "theorems": [],
  "note": "equivalent: the default of a list is the empty list"
 },
 "au1-027": {
  "theorems": [],
  "note": "equivalent: the default of a list is the empty list"
 },
 "au1-085": {
  "theorems": [],
  "note": "equivalent: the default of a list is the empty list"
 },
 "au1-078": {
  "theorems": [],
  "note": "equivalent: the default of Nat is 0"
 },
 "au1-022": {
  "theorems": [],
  "note": "a name in the table of the golang-basics example: data, no property is about it"
 },
 "au1-090": {
  "theorems": [],
  "note": "a name in the table of the test schema: data, no property is about it"
 },
 "au1-095": {
  "theorems": [],
  "note": "text of an internal error: no property is about it"
 },
 "au1-033": {
  "theorems": [
   "C105_loads"
  ],
  "note": "survived before C105 existed; killed since"
 },
 "au1-043": {
  "theorems": [
   "C106_error_said"
  ],
  "note": "survived before C106 existed; killed since"
 },
 "au1-057": {
  "theorems": [],
  "note": "equivalent: the name of a token type is shown only for tokens without text"
 },
 "au1-065": {
  "theorems": [
   "C87_own_errors",
   "C95_no_bigint"
  ],
  "note": "survived; killed since"
 },
 "au1-081": {
  "theorems": [
   "C95_no_bigint"
  ],
  "note": "survived; killed since"
 },
 "au1-066": {
  "theorems": [],
  "note": "not reachable: the statuses of errors are 400-599"
 },
 "au1-072": {
  "theorems": [],
  "note": "equivalent where it is used: bigints do not come from JSON"
 },
 "au2-024": {
  "theorems": [
   "Verif.Values.C86_others"
  ],
  "note": "added: the answers of the other methods of the example"
 },
 "au2-023": {
  "theorems": [],
  "note": "equivalent: both branches are the same"
 },
 "au2-049": {
  "theorems": [
   "C66_trim",
   "C51_blank"
  ],
  "note": "the blanks of the specification were the model's own isSpace; they are now tied to an independent list of white space characters"
 },
 "au2-036": {
  "theorems": [],
  "note": "no effect that a client can see: the service Admin cannot be reached (C86_admin_unreachable)"
 },
 "au2-085": {
  "theorems": [
   "C111_grammar",
   "C111_errors"
  ],
  "note": "No theorem said that a status follows the word HTTP; the grammar of C111 does."
 },
 "au2-111": {
  "theorems": [
   "C06_unterminated"
  ],
  "note": "Which of the two errors an unterminated string gives was not stated."
 },
 "au2-110": {
  "theorems": [],
  "note": "appendFn of Gen/Funcs.lean was dead: Gen/Lists.lean models it, with the memory behind slices. The dead definition is removed."
 },
 "au3-018": {
  "theorems": [
   "C96_file"
  ],
  "note": "added: the literals of the example server are computed from the text of service.ridl"
 }
}
{
 "b07": [
  "C66_list"
 ],
 "b16": [
  "C66_list"
 ],
 "b28": [
  "C66_list"
 ],
 "i07_note": "equivalent mutant: whenever the run is right-flanking, the dropped clause already holds, so the edited program computes the same function",
 "j09": [
  "C56 (AutolinkText lists the scheme characters)"
 ],
 "j15": [
  "C56 (Identifier)"
 ],
 "i13": [
  "C56 (Identifier)"
 ],
 "j30": [
  "C68_tag (new)"
 ],
 "j32": [
  "C68_tag (new)"
 ],
 "i21": [
  "C69_hooks (new)"
 ],
 "k12": [
  "C11_typed_finders"
 ],
 "k31": [
  "C73_expand",
  "C73_generic"
 ],
 "k36": [
  "C16_transform_if_doc"
 ],
 "k56_note": "equivalent edit: C23 proves the HTML output does not depend on the width the edit changes",
 "n64": [
  "C73_generic_hooks (new)"
 ],
 "a071_note": "the value of a default is not claimed by any property; with an explicit configuration the edit is not visible",
 "a129_note": "the value of a default is not claimed by any property; with an explicit configuration the edit is not visible",
 "a536_note": "the value of a default is not claimed by any property; with an explicit configuration the edit is not visible",
 "a608_note": "equivalent edit: the counter of a bullet list is never used",
 "a569_note": "not observable: the only sums of cell widths that could overflow are bounded by the size of the input",
 "a570_note": "as a569",
 "a571_note": "as a569",
 "a522_note": "equivalent edit: padding with zero cells",
 "a523_note": "equivalent edit: taking all the cells",
 "a241": [
  "hexVal_list (new)"
 ],
 "a241_note": "equivalent on hexadecimal digits, the only arguments",
 "a243": [
  "hexVal_list (new)"
 ],
 "a243_note": "equivalent on hexadecimal digits, the only arguments",
 "a025": [
  "C07_release (new)",
  "C08_release (new)"
 ],
 "a025_note": "survived; release builds wrap, which C07_release and C08_release now state",
 "a026": [
  "C07_release (new)",
  "C08_release (new)"
 ],
 "a026_note": "as a025",
 "a352_note": "equivalent edit: the clause of _ holds whenever the run is right-flanking",
 "a339": [
  "C84_exact (new)"
 ],
 "a339_note": "survived; killed by C84_exact, whose Identifier excludes doubled underscores",
 "a341": [
  "C84_exact (new)"
 ],
 "a341_note": "survived; killed by C84_exact, whose Identifier has the bounds on the length",
 "a220": [
  "isHexDigit_list (new)"
 ],
 "a220_note": "survived, as the specification names the same class; the class is now listed (CharClasses.lean)",
 "a223": [
  "isAsciiControl_list (new)"
 ],
 "a223_note": "survived, as the specification names the same class; the class is now listed (CharClasses.lean)",
 "u44_note": "the definition was used nowhere in the model; it has been deleted",
 "v01_note": "the definition was used nowhere in the model (every use is of Nom.opt, without state); it has been deleted"
}
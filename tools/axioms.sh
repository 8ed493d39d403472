#!/bin/sh
# Lists the axioms that each theorem in MANIFEST.json depends on, in ../AXIOMS.md.
# Needs a completed `lake build` in ../lean.
cd "$(dirname "$0")/../lean" || exit 1
tmp=$(mktemp --suffix=.lean)
{
  echo "import Verif"
  python3 -c 'import json
for c in json.load(open("../MANIFEST.json"))["claims"]:
    for t in c["theorems"]: print("#print axioms",t)'
} > "$tmp"
{
  echo "# Axioms of the property theorems"
  echo
  echo "Output of \`#print axioms\` for every theorem named in \`MANIFEST.json\`, made by \`tools/axioms.sh\`."
  echo
  echo '```'
  lake env lean "$tmp" | tr '\n' ' ' | sed "s/ *'Verif/\n'Verif/g" | sed '/^$/d;s/  */ /g;s/ *$//'
  echo
  echo '```'
} > ../AXIOMS.md
rm -f "$tmp"

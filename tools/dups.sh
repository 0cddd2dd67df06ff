#!/bin/bash
# Names declared in more than one module (all modules share the namespace PC).
cd "$(dirname "$0")/../lean/Verif"
grep -rnoE "^(private )?(noncomputable )?(theorem|def|lemma|structure|inductive|abbrev) [^ :({\[]+" --include=*.lean . |
  awk -F: '{n=split($3,a," "); print a[n] " " $1}' | sort -u | awk '{c[$1]++; f[$1]=f[$1] " " $2} END {for (k in c) if (c[k]>1) print k f[k]}'

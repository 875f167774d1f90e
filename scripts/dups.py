"""Names declared in more than one module (all modules share the namespace Verif)."""
import re, pathlib, collections
seen = collections.defaultdict(list)
root = pathlib.Path(__file__).resolve().parent.parent / "lean" / "Verif"
for f in sorted(root.rglob("*.lean")):
    ns = []
    for line in f.read_text().split("\n"):
        m = re.match(r"namespace (\S+)", line)
        if m: ns.append(m.group(1)); continue
        m = re.match(r"end (\S+)", line)
        if m and ns and ns[-1] == m.group(1): ns.pop(); continue
        m = re.match(r"(?:@\[[^\]]*\] )?(?:noncomputable |protected )*(?:def|theorem|lemma|structure|inductive|abbrev|class) (\S+)", line)
        if m: seen[".".join(ns + [m.group(1)])].append(f.name)
for k, v in seen.items():
    if len(v) > 1: print(k, v)

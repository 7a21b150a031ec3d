#!/usr/bin/env python3
"""st.py ID status note: set an entry of status.json"""
import json, sys
p='/verif/tools/status.json'
d=json.load(open(p)); d[sys.argv[1]]=[sys.argv[2], sys.argv[3] if len(sys.argv)>3 else ""]
json.dump(d,open(p,'w'),indent=1)
